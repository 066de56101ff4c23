import Verif.Lemmas.Admin
import Verif.Spec.AdminMach
/-
The admin applet simulates the machine of `Spec/AdminMach.lean`.
-/
set_option linter.unusedSimpArgs false
namespace Verif.Admin
open Cmd Verif.Spec.Admin

variable {σ τ : Type} {A : Fault → Prop} {x : Ext σ τ} {i : In} {f : Flash σ} {r : Ram τ} {m : Mach}

/-- The settings of the machine as the device keeps them. -/
def cfgOf (m : Mach) : Config := ⟨m.led, m.ndef, m.webusb⟩

/-- The files hold what the machine says. -/
structure Files (f : Flash σ) (m : Mach) : Prop where
  pin : ∃ c : UInt8, f.pin = some ⟨m.pin, some c, some 3⟩ ∧ c.toNat = m.tries
  len : 6 ≤ m.pin.length ∧ m.pin.length ≤ 64
  sn : f.sn = m.sn
  cfg : f.cfg = some (cfgOf m)

/-- So do the variables. -/
structure Vars (r : Ram τ) (m : Mach) : Prop where
  pin : r.pin = ⟨m.shown⟩
  cfg : r.cfg = cfgOf m

/-- A command did what the machine says. -/
structure Fits (m : Mach) (i : In) (a : Reply) (f : Flash σ) (r : Ram τ) : Prop where
  ans : (m.command i).1 a
  files : Files f (m.command i).2
  vars : Vars r (m.command i).2

/-- A command was cut. -/
def Left (m : Mach) (i : In) (f : Flash σ) : Prop := ∃ m', m.torn i m' ∧ Files f m'

theorem Left.none (h : Files f m) : Left m i f := ⟨m, .inl rfl, h⟩

/-- The parts of the state the machine does not see may change. -/
theorem Files.frame {f' : Flash σ} (h : Files f m) (h1 : f'.pin = f.pin) (h2 : f'.sn = f.sn) (h3 : f'.cfg = f.cfg) :
    Files f' m := ⟨h1 ▸ h.pin, h.len, h2 ▸ h.sn, h3 ▸ h.cfg⟩

theorem Vars.frame {r' : Ram τ} (h : Vars r m) (h1 : r'.pin = r.pin) (h2 : r'.cfg = r.cfg) : Vars r' m :=
  ⟨h1 ▸ h.pin, h2 ▸ h.cfg⟩

theorem not_io (hA : ¬ A .fail) (h : Files f m) : ¬ Pin.Io A f.pin := by
  obtain ⟨c, hc, -⟩ := h.pin
  rintro (h | h)
  · exact hA h
  · rcases h _ hc with h | h <;> cases h

theorem ret_eq (hA : ¬ A .fail) (h : Files f m) {n : Option Nat} (hn : Pin.RetEff A f.pin n) : n = some m.tries := by
  obtain ⟨c, hc, ht⟩ := h.pin
  cases hn with
  | empty p hp hd =>
    rw [hc] at hp; cases hp
    have := h.len.1
    simp [show m.pin = [] from hd] at this
  | io h =>
    rcases h with h | h
    · exact absurd h hA
    · cases h _ hc
  | some p c' hp hc' hd =>
    rw [hc] at hp; cases hp; cases hc'
    rw [ht]

/-- `LC` as a byte. -/
theorem lc_byte (hl : i.c.data.length ≤ 255) : (UInt8.ofNat i.c.lc).toNat = i.c.data.length := by
  simp [Apdu.Capdu.lc]; omega

theorem len_iff (hl : i.c.data.length ≤ 255) :
    Pin.lenOk (pinCfg x) (UInt8.ofNat i.c.lc) ↔ ¬ (i.c.data.length < 6 ∨ 64 < i.c.data.length) := by
  have e := lc_byte hl
  simp only [Pin.lenOk, pinCfg, UInt8.le_iff_toNat_le]
  rw [e]
  show 6 ≤ _ ∧ _ ≤ 64 ↔ _
  omega

theorem byte_pred {c : UInt8} (h : c ≠ 0) : (c - 1).toNat = c.toNat - 1 := by
  have : c.toNat ≠ 0 := fun e => h (UInt8.toNat_inj.mp e)
  have h1 : (1 : UInt8) ≤ c := UInt8.le_iff_toNat_le.2 (by show 1 ≤ _; omega)
  rw [UInt8.toNat_sub_of_le _ _ h1]; rfl

/-! ### VERIFY -/

theorem pin_short {cfg : Pin.Cfg} {st b : Bytes} {l : UInt8} {p : Pin.Flash} {q : Pin.Ram} (h : ¬ Pin.lenOk cfg l) :
    wp A (Cmd.lift (Pin.verify cfg st b l) : Cmd Pin.Flash Pin.Ram Reply _)
      (fun a p' q' => a = (.lengthInvalid, none) ∧ p' = p ∧ q' = ⟨false⟩) (fun _ _ _ => False) (fun _ _ => False) p q := by
  unfold Pin.verify
  simp only [lift_bind, lift_pure, Pin.lift_mod, lift_ite]
  apply wp_bind; apply wp_mod
  rw [if_pos (Pin.not_lenOk h)]
  exact wp_pure ⟨rfl, rfl, rfl⟩

/-- What the machine says about a command, spelt out. -/
theorem says {v : (Reply → Prop) × Mach} {P : Reply → Prop} {m' : Mach} {a : Reply} (e : v = (P, m')) (h1 : P a)
    (h2 : Files f m') (h3 : Vars r m') : v.1 a ∧ Files f v.2 ∧ Vars r v.2 := by
  subst e; exact ⟨h1, h2, h3⟩

theorem verify_exact (hx : x.neq ≠ 0 ∧ x.neq ≠ 1) (hA : ¬ A .fail) (hl : i.c.data.length ≤ 255)
    (h : Files f m) (hv : Vars r m) :
    wp A (verify x i) (fun a f' r' => (m.verify i.c).1 a ∧ Files f' (m.verify i.c).2 ∧ Vars r' (m.verify i.c).2)
      (fun a f' r' => (m.verify i.c).1 a ∧ Files f' (m.verify i.c).2 ∧ Vars r' (m.verify i.c).2)
      (fun f' _ => Files f' m) f r := by
  unfold verify
  simp only [Cmd.throw_bind]
  apply wp_ite
  · intro h1
    have h1 : i.c.p1 ≠ 0 ∨ i.c.p2 ≠ 0 := by simpa using h1
    have e := Mach.verify.eq_def m i.c; rw [if_pos h1] at e
    exact wp_throw (says e rfl h hv)
  intro h1
  have h1 : ¬ (i.c.p1 ≠ 0 ∨ i.c.p2 ≠ 0) := by simpa using h1
  apply wp_ite
  · intro h2
    have h2 : i.c.data = [] := by simpa [Apdu.Capdu.lc] using h2
    have e := Mach.verify.eq_def m i.c; rw [if_neg h1, if_pos h2] at e
    apply wp_bind; apply wp_get
    apply wp_ite
    · intro h3
      rw [hv.pin] at h3
      refine wp_pure (says e ?_ h hv)
      rw [show m.shown = true from h3]; rfl
    · intro h3
      rw [hv.pin] at h3
      apply wp_bind
      refine wp_onPin Pin.getRetries_wp ?_ ?_
      · rintro n p q ⟨hr, rfl, rfl⟩
        rw [ret_eq hA h hr]
        refine wp_throw (says e ?_ h hv)
        rw [if_neg h3]; rfl
      · rintro p q ⟨_, rfl, rfl⟩; exact h
  intro h2
  have h2 : i.c.data ≠ [] := by simpa [Apdu.Capdu.lc] using h2
  by_cases hln : i.c.data.length < 6 ∨ 64 < i.c.data.length
  · apply wp_bind
    refine wp_onPin (pin_short fun h => (len_iff hl).1 h hln) ?_ (fun _ _ h => h.elim)
    rintro a p q ⟨rfl, rfl, rfl⟩
    have e := Mach.verify.eq_def m i.c; rw [if_neg h1, if_neg h2, if_pos hln] at e
    exact wp_throw (says e rfl ⟨h.pin, h.len, h.sn, h.cfg⟩
      ⟨rfl, hv.cfg⟩)
  have e := Mach.verify.eq_def m i.c; rw [if_neg h1, if_neg h2, if_neg hln] at e
  obtain ⟨c, hc, ht⟩ := h.pin
  have hb : Pin.candidate i.c.data (UInt8.ofNat i.c.lc) = i.c.data := by
    unfold Pin.candidate; rw [lc_byte hl]; exact List.take_length
  have hm : m.pin.take 64 = m.pin := List.take_of_length_le h.len.2
  apply wp_bind
  refine wp_onPin (Pin.verify_wp (cfg := pinCfg x) hx (ofNat_le _)) ?_ ?_
  · intro a p q he
    cases he with
    | length h' => exact absurd ((len_iff hl).2 hln) h'
    | io n h' => exact absurd h' (not_io hA h)
    | blocked p hp hc' =>
      rw [hc] at hp; cases hp; cases hc'
      have ht' : m.tries = 0 := ht.symm
      rw [if_pos ht'] at e
      exact wp_throw (says e rfl ⟨⟨0, hc, ht⟩, h.len, h.sn, h.cfg⟩ ⟨rfl, hv.cfg⟩)
    | wrong p c' hp hc' hz hl' hm' =>
      rw [hc] at hp; cases hp; cases hc'
      have hne : m.tries ≠ 0 := fun e => hz (UInt8.toNat_inj.mp (ht.trans e))
      have e1 := byte_pred hz
      rw [if_neg hne, if_neg (fun e : i.c.data = m.pin => hm' (by rw [hb, hm, e]))] at e
      have hf : ∀ n, n = m.tries - 1 → Files { f with pin := some ⟨m.pin, some (c - 1), some 3⟩ }
          { m with tries := n, shown := false } := fun n hn =>
        ⟨⟨c - 1, rfl, by rw [e1, ht, hn]⟩, h.len, h.sn, h.cfg⟩
      simp only [beq_iff_eq, if_neg (by decide : ¬ Pin.Rc.authFail = Pin.Rc.ioFail),
        if_neg (by decide : ¬ Pin.Rc.authFail = Pin.Rc.lengthInvalid)]
      apply wp_ite
      · intro h3
        have h4 : m.tries = 1 := by rw [h3] at e1; have : (0 : UInt8).toNat = 0 := rfl; omega
        rw [if_pos h4] at e
        exact wp_throw (says e rfl (hf 0 (by omega)) ⟨rfl, hv.cfg⟩)
      · intro h3
        have h4 : m.tries ≠ 1 := fun e => h3 (UInt8.toNat_inj.mp (by rw [e1, ht, e]; rfl))
        rw [if_neg h4] at e
        refine wp_throw (says e ?_ (hf _ rfl) ⟨rfl, hv.cfg⟩)
        rw [e1, ht]; rfl
    | right p c' d hp hc' hz hl' hm' hd =>
      rw [hc] at hp; cases hp; cases hc'; cases hd
      have hne : m.tries ≠ 0 := fun e => hz (UInt8.toNat_inj.mp (ht.trans e))
      rw [hb, hm] at hm'
      rw [if_neg hne, if_pos hm'] at e
      simp only [beq_iff_eq, if_neg (by decide : ¬ Pin.Rc.ok = Pin.Rc.ioFail),
        if_neg (by decide : ¬ Pin.Rc.ok = Pin.Rc.lengthInvalid), if_neg hz,
        if_neg (by decide : ¬ Pin.Rc.ok = Pin.Rc.authFail)]
      exact wp_pure (says e rfl ⟨⟨3, rfl, rfl⟩, h.len, h.sn, h.cfg⟩ ⟨rfl, hv.cfg⟩)
    | rightIo p c' hp hc' hz hl' hm' h' => exact absurd h' (not_io hA h)
  · rintro p q ⟨_, rfl⟩; exact h.frame rfl rfl rfl

/-! ### The other commands -/

theorem lb_toNat (b : Byte) : (b &&& 1 == 1) = decide (b.toNat % 2 = 1) := by
  have : (b &&& 1).toNat = b.toNat % 2 := by
    rw [UInt8.toNat_and]; exact Nat.and_one_is_mod _
  by_cases h : b.toNat % 2 = 1
  · rw [decide_eq_true h, beq_iff_eq]
    exact UInt8.toNat_inj.mp (by rw [this, h]; rfl)
  · rw [decide_eq_false h]
    apply beq_false_of_ne
    intro e; rw [e] at this; exact h this.symm

theorem change_exact (hA : ¬ A .fail) (hl : i.c.data.length ≤ 255) (h : Files f m) (hv : Vars r m) :
    wp A (changePin x i.c) (fun a f' r' => (m.change i.c).1 a ∧ Files f' (m.change i.c).2 ∧ Vars r' (m.change i.c).2)
      (fun a f' r' => (m.change i.c).1 a ∧ Files f' (m.change i.c).2 ∧ Vars r' (m.change i.c).2)
      (fun f' _ => Files f' m ∨ (m.change i.c).1 (.resp [] 0x9000) ∧ Files f' { m with pin := i.c.data }) f r := by
  unfold changePin
  simp only [Cmd.throw_bind]
  apply wp_ite
  · intro h1
    have h1 : i.c.p1 ≠ 0 ∨ i.c.p2 ≠ 0 := by simpa using h1
    have e := Mach.change.eq_def m i.c; rw [if_pos h1] at e
    exact wp_throw (says e rfl h hv)
  intro h1
  have h1 : ¬ (i.c.p1 ≠ 0 ∨ i.c.p2 ≠ 0) := by simpa using h1
  obtain ⟨c, hc, ht⟩ := h.pin
  have hb : i.c.data.take (UInt8.ofNat i.c.lc).toNat = i.c.data := by rw [lc_byte hl]; exact List.take_length
  have e := Mach.change.eq_def m i.c; rw [if_neg h1] at e
  apply wp_bind
  refine wp_onPin Pin.update_wp ?_ ?_
  · intro a p q h'
    cases h' with
    | length h' =>
      have hn : i.c.data.length < 6 ∨ 64 < i.c.data.length := Classical.byContradiction fun hn => h' ((len_iff hl).2 hn)
      rw [if_pos hn] at e
      exact wp_throw (says e rfl h hv)
    | io h' => exact absurd h' (not_io hA h)
    | half hl' h' => exact absurd h' (not_io hA h)
    | done p d hp hd hl' =>
      rw [hc] at hp; cases hp; cases hd
      have hn := (len_iff hl).1 hl'
      rw [hb]
      rw [if_neg hn] at e
      exact wp_pure (says e rfl ⟨⟨3, rfl, rfl⟩, (by show 6 ≤ i.c.data.length ∧ i.c.data.length ≤ 64; omega), h.sn, h.cfg⟩ ⟨rfl, hv.cfg⟩)
  · rintro p q ⟨_, rfl | ⟨hl', rfl⟩⟩
    · exact .inl (h.frame rfl rfl rfl)
    · have hn := (len_iff hl).1 hl'
      rw [if_neg hn] at e
      refine .inr ⟨by rw [e]; rfl, ⟨⟨c, ?_, ht⟩, (by show 6 ≤ i.c.data.length ∧ i.c.data.length ≤ 64; omega), h.sn, h.cfg⟩⟩
      rw [hb, hc]; rfl

theorem sn_exact (hA : ¬ A .fail) (h : Files f m) (hv : Vars r m) :
    wp A (writeSn i.c : M σ τ Reply)
      (fun a f' r' => (m.writeSn i.c).1 a ∧ Files f' (m.writeSn i.c).2 ∧ Vars r' (m.writeSn i.c).2)
      (fun a f' r' => (m.writeSn i.c).1 a ∧ Files f' (m.writeSn i.c).2 ∧ Vars r' (m.writeSn i.c).2)
      (fun f' _ => Files f' m ∨ (m.writeSn i.c).1 (.resp [] 0x9000) ∧ Files f' { m with sn := some [] }) f r := by
  unfold writeSn
  simp only [Cmd.throw_bind]
  apply wp_ite
  · intro h1
    have h1 : i.c.p1 ≠ 0 ∨ i.c.p2 ≠ 0 := by simpa using h1
    have e := Mach.writeSn.eq_def m i.c; rw [if_pos h1] at e
    exact wp_throw (says e rfl h hv)
  intro h1
  have h1 : ¬ (i.c.p1 ≠ 0 ∨ i.c.p2 ≠ 0) := by simpa using h1
  apply wp_ite
  · intro h2
    have h2 : i.c.data.length ≠ 4 := by simpa [Apdu.Capdu.lc] using h2
    have e := Mach.writeSn.eq_def m i.c; rw [if_neg h1, if_pos h2] at e
    exact wp_throw (says e rfl h hv)
  intro h2
  have h2 : ¬ i.c.data.length ≠ 4 := by simpa [Apdu.Capdu.lc] using h2
  apply wp_bind; apply wp_rdF
  rotate_left
  · intro h; exact absurd h hA
  · intro _; exact .inl h
  intro _
  apply wp_ite
  · intro h3
    have h3 : m.sn ≠ none := by rw [← h.sn]; intro e; rw [e] at h3; cases h3
    have e := Mach.writeSn.eq_def m i.c; rw [if_neg h1, if_neg h2, if_pos h3] at e
    exact wp_throw (says e rfl h hv)
  intro h3
  have h3 : m.sn = none := by rw [← h.sn]; cases hs : f.sn with
    | none => rfl
    | some d => rw [hs] at h3; simp at h3
  have e := Mach.writeSn.eq_def m i.c; rw [if_neg h1, if_neg h2, if_neg (by simpa using h3)] at e
  have hsn : f.sn = none := h.sn.trans h3
  apply wp_bind; apply wp_wrOr
  · intro f' hf; cases hf
    apply wp_bind; apply wp_wrOr
    · intro f' hf; cases hf
      exact wp_pure (says e rfl ⟨h.pin, h.len, rfl, h.cfg⟩ ⟨hv.pin, hv.cfg⟩)
    · intro h; cases h
    · intro h; exact absurd h hA
    · intro _; exact .inr ⟨by rw [e]; rfl, ⟨h.pin, h.len, by simp [hsn], h.cfg⟩⟩
  · intro h; cases h
  · intro h; exact absurd h hA
  · intro _; exact .inl h

theorem readSn_exact (hA : ¬ A .fail) (h : Files f m) (hv : Vars r m) (h1 : ¬ (1 < i.c.p1 ∨ i.c.p2 ≠ 0))
    (h2 : i.c.p1 = 0) :
    wp A (readSn i.c : M σ τ Reply)
      (fun a f' r' => (m.readSn i.c).1 a ∧ Files f' (m.readSn i.c).2 ∧ Vars r' (m.readSn i.c).2)
      (fun a f' r' => (m.readSn i.c).1 a ∧ Files f' (m.readSn i.c).2 ∧ Vars r' (m.readSn i.c).2)
      (fun f' _ => Files f' m) f r := by
  unfold readSn
  have h3 : i.c.p2 = 0 := Classical.byContradiction fun e => h1 (.inr e)
  have h4 : ¬ i.c.p1 = 1 := by rw [h2]; decide
  simp only [Cmd.throw_bind]
  rw [if_neg (by simp [h2, h3])]
  apply wp_ite
  · intro h5
    have e := Mach.readSn.eq_def m i.c; rw [if_neg h1, if_neg h4, if_pos h5] at e
    exact wp_throw (says e rfl h hv)
  intro h5
  have e := Mach.readSn.eq_def m i.c; rw [if_neg h1, if_neg h4, if_neg h5] at e
  apply wp_bind
  unfold fillSn
  apply wp_bind; apply wp_rdF
  rotate_left
  · intro h; exact absurd h hA
  · intro _; exact h
  intro _
  have hs := h.sn
  cases hm : m.sn with
  | none =>
    rw [hs, hm]
    exact wp_pure (wp_pure (says e (by simp only [Mach.serial, hm]) h hv))
  | some d =>
    rw [hs, hm]
    refine wp_pure (wp_pure (says e ?_ h hv))
    simp only [Mach.serial, hm]
    by_cases hd : d.length < 4
    · rw [if_pos hd, if_pos (by simp; omega)]
    · rw [if_neg hd, if_neg (by simp; omega)]

theorem config_exact (hA : ¬ A .fail) (h : Files f m) (hv : Vars r m) :
    wp A (config i.c : M σ τ Reply)
      (fun a f' r' => (m.config i.c).1 a ∧ Files f' (m.config i.c).2 ∧ Vars r' (m.config i.c).2)
      (fun a f' r' => (m.config i.c).1 a ∧ Files f' (m.config i.c).2 ∧ Vars r' (m.config i.c).2)
      (fun f' _ => Files f' m) f r := by
  unfold config
  simp only [Cmd.throw_bind, lb_toNat, beq_iff_eq]
  have fin : ∀ (m' : Mach) (r' : Ram τ), m.config i.c = (Just 0x9000, m') → m'.pin = m.pin → m'.tries = m.tries →
      m'.sn = m.sn → Vars r' m' → wp A (do
      let r ← Cmd.get
      Cmd.wrOr (fun f => some { f with cfg := some r.cfg }) ioErr
      return .sw SW.ok : M σ τ Reply)
      (fun a f' r' => (m.config i.c).1 a ∧ Files f' (m.config i.c).2 ∧ Vars r' (m.config i.c).2)
      (fun a f' r' => (m.config i.c).1 a ∧ Files f' (m.config i.c).2 ∧ Vars r' (m.config i.c).2)
      (fun f' _ => Files f' m) f r' := by
    intro m' r' e h1 h2 h3 h4
    apply wp_bind; apply wp_get
    apply wp_bind; apply wp_wrOr
    · intro f' hf; cases hf
      exact wp_pure (says e rfl ⟨by rw [h1, h2]; exact h.pin, by rw [h1]; exact h.len, by rw [h3]; exact h.sn,
        by rw [h4.cfg]⟩ h4)
    · intro h; cases h
    · intro h; exact absurd h hA
    · intro _; exact h
  have hc := hv.cfg
  apply wp_ite
  · intro h1
    apply wp_bind; apply wp_mod
    have e := Mach.config.eq_def m i.c; rw [if_pos h1] at e
    exact fin _ _ e rfl rfl rfl ⟨hv.pin, by simp only [hc, cfgOf]⟩
  intro h1
  apply wp_ite
  · intro h2
    apply wp_bind; apply wp_mod
    have e := Mach.config.eq_def m i.c; rw [if_neg h1, if_pos h2] at e
    exact fin _ _ e rfl rfl rfl ⟨hv.pin, by simp only [hc, cfgOf]⟩
  intro h2
  apply wp_ite
  · intro h3
    apply wp_bind; apply wp_mod
    have e := Mach.config.eq_def m i.c; rw [if_neg h1, if_neg h2, if_pos h3] at e
    exact fin _ _ e rfl rfl rfl ⟨hv.pin, by simp only [hc, cfgOf]⟩
  intro h3
  have e := Mach.config.eq_def m i.c; rw [if_neg h1, if_neg h2, if_neg h3] at e
  exact wp_throw (says e rfl h hv)

theorem readConfig_exact (h : Files f m) (hv : Vars r m) :
    wp A (readConfig i.c : M σ τ Reply)
      (fun a f' r' => (m.readConfig i.c).1 a ∧ Files f' (m.readConfig i.c).2 ∧ Vars r' (m.readConfig i.c).2)
      (fun a f' r' => (m.readConfig i.c).1 a ∧ Files f' (m.readConfig i.c).2 ∧ Vars r' (m.readConfig i.c).2)
      (fun f' _ => Files f' m) f r := by
  unfold readConfig
  simp only [Cmd.throw_bind]
  apply wp_ite
  · intro h1
    have h1 : i.c.p1 ≠ 0 ∨ i.c.p2 ≠ 0 := by simpa using h1
    have e := Mach.readConfig.eq_def m i.c; rw [if_pos h1] at e
    exact wp_throw (says e rfl h hv)
  intro h1
  have h1 : ¬ (i.c.p1 ≠ 0 ∨ i.c.p2 ≠ 0) := by simpa using h1
  apply wp_ite
  · intro h2
    have e := Mach.readConfig.eq_def m i.c; rw [if_neg h1, if_pos h2] at e
    exact wp_throw (says e rfl h hv)
  intro h2
  apply wp_bind; apply wp_get
  have e := Mach.readConfig.eq_def m i.c; rw [if_neg h1, if_neg h2] at e
  refine wp_pure (says e ⟨Ndef.getReadOnly r.ndef, ?_⟩ h hv)
  rw [hv.cfg]; rfl

theorem usage_exact (h : Files f m) (hv : Vars r m) :
    wp A (flashUsage i : M σ τ Reply)
      (fun a f' r' => (m.flashUsage i).1 a ∧ Files f' (m.flashUsage i).2 ∧ Vars r' (m.flashUsage i).2)
      (fun a f' r' => (m.flashUsage i).1 a ∧ Files f' (m.flashUsage i).2 ∧ Vars r' (m.flashUsage i).2)
      (fun f' _ => Files f' m) f r := by
  unfold flashUsage
  simp only [Cmd.throw_bind]
  apply wp_ite
  · intro h1
    have h1 : i.c.p1 ≠ 0 ∨ i.c.p2 ≠ 0 := by simpa using h1
    have e := Mach.flashUsage.eq_def m i; rw [if_pos h1] at e
    exact wp_throw (says e rfl h hv)
  intro h1
  have h1 : ¬ (i.c.p1 ≠ 0 ∨ i.c.p2 ≠ 0) := by simpa using h1
  apply wp_ite
  · intro h2
    have e := Mach.flashUsage.eq_def m i; rw [if_neg h1, if_pos h2] at e
    exact wp_throw (says e rfl h hv)
  intro h2
  have e := Mach.flashUsage.eq_def m i; rw [if_neg h1, if_neg h2] at e
  exact wp_pure (says e rfl h hv)

theorem presence_iff {polls : Nat → List Bool} : strongPresence polls = true ↔ FiveTouches polls := by
  simp [strongPresence, FiveTouches]

theorem factory_exact (hA : ¬ A .fail) (hC : ¬ A .cut) (hw : ResetsWork A x) (h : Files f m) (hv : Vars r m) :
    wp A (factoryReset x i) (fun a f' r' => (m.factory i).1 a ∧ Files f' (m.factory i).2 ∧ Vars r' (m.factory i).2)
      (fun a f' r' => (m.factory i).1 a ∧ Files f' (m.factory i).2 ∧ Vars r' (m.factory i).2)
      (fun _ _ => False) f r := by
  have e := Mach.factory.eq_def m i
  by_cases hall : i.c.p1 = 0 ∧ i.c.data = magic ∧ m.tries = 0 ∧ i.nfc = false ∧ FiveTouches i.polls
  · obtain ⟨h1, h2, h3, h4, h5⟩ := hall
    rw [if_neg (by simpa using h1), if_neg (by rw [h2]; decide), if_neg (by rw [h2]; decide), if_neg (by simp [h3, h4]),
      if_neg (by simpa using h5)] at e
    have key : ∀ o f' r', FacEff A x i f r o f' r' → ∃ a, o = .done a ∧
        ((m.factory i).1 a ∧ Files f' (m.factory i).2 ∧ Vars r' (m.factory i).2) := by
      intro o f' r' he
      cases he with
      | refuse sw hs hw' =>
        rcases hw' with h' | h' | h' | h' | ⟨n, hn, h'⟩
        · exact absurd h1 h'
        · exact absurd h2 h'
        · rw [h4] at h'; cases h'
        · rw [presence_iff.2 h5] at h'; cases h'
        · rw [ret_eq hA h hn] at h'; exact absurd h3 h'
      | cut h' => exact absurd h' hC
      | run _ _ _ _ _ _ _ _ hr =>
        cases hr with
        | part _ _ _ _ _ _ hw' =>
          rcases hw' with h' | h' | h'
          · exact absurd h' hA
          · exact absurd h' hC
          · exact absurd hw h'
        | done _ _ hs hp hc hn hrp hrc hrn ho =>
          exact ⟨_, rfl, says e rfl ⟨⟨3, hp, rfl⟩, ⟨Nat.le_refl 6, Nat.le_of_ble_eq_true rfl⟩, hs.trans h.sn, hc⟩ ⟨hrp, hrc⟩⟩
    refine wp_mono factory_eff ?_ ?_ ?_
    · intro a f' r' he; obtain ⟨_, h', h2⟩ := key _ _ _ he; cases h'; exact h2
    · intro a f' r' he; obtain ⟨_, h', h2⟩ := key _ _ _ he; cases h'; exact h2
    · intro f' r' he; obtain ⟨_, h', h2⟩ := key _ _ _ he; cases h'
  · unfold factoryReset
    simp only [Cmd.throw_bind]
    apply wp_ite
    · intro h1
      have h1 : i.c.p1 ≠ 0 := by simpa using h1
      rw [if_pos h1] at e
      exact wp_throw (says e rfl h hv)
    intro h1
    have h1 : i.c.p1 = 0 := by simpa using h1
    rw [if_neg (by simpa using h1)] at e
    apply wp_ite
    · intro h2
      have h2 : i.c.data.length ≠ 5 := by simpa [Apdu.Capdu.lc] using h2
      rw [if_pos h2] at e
      exact wp_throw (says e rfl h hv)
    intro h2
    have h2 : ¬ i.c.data.length ≠ 5 := by simpa [Apdu.Capdu.lc] using h2
    rw [if_neg h2] at e
    apply wp_ite
    · intro h3
      have h3 : i.c.data ≠ magic := by simpa using h3
      have h3 : i.c.data ≠ [0x52, 0x45, 0x53, 0x45, 0x54] := h3
      rw [if_pos h3] at e
      exact wp_throw (says e rfl h hv)
    intro h3
    have h3 : i.c.data = magic := by simpa using h3
    rw [if_neg (by rw [h3]; decide)] at e
    apply wp_bind
    refine wp_onPin Pin.getRetries_wp ?_ ?_
    rotate_left
    · rintro p q ⟨h, _⟩; exact absurd h hC
    rintro n p q ⟨hr, rfl, rfl⟩
    rw [ret_eq hA h hr]
    apply wp_ite
    · intro h4
      rw [if_pos (.inl (by simp at h4; omega))] at e
      exact wp_throw (says e rfl h hv)
    intro h4
    have h4 : m.tries = 0 := by simpa using h4
    apply wp_ite
    · intro h5
      rw [if_pos (.inr h5)] at e
      exact wp_throw (says e rfl h hv)
    intro h5
    have h5 : i.nfc = false := by simpa using h5
    rw [if_neg (by simp [h4, h5])] at e
    have h6 : ¬ FiveTouches i.polls := fun h6 => hall ⟨h1, h3, h4, h5, h6⟩
    rw [if_pos h6] at e
    have h7 : strongPresence i.polls = false := by
      cases hs : strongPresence i.polls with
      | false => rfl
      | true => exact absurd (presence_iff.1 hs) h6
    rw [h7]
    exact wp_throw (says e rfl h hv)

/-! ### All commands -/

/-- A call of another applet. -/
theorem other_exact {p : Sub σ τ Reply} (h : Files f m) (hv : Vars r m) :
    wp A (onOther p) (fun _ f' r' => Files f' m ∧ Vars r' m) (fun _ f' r' => Files f' m ∧ Vars r' m) (fun f' _ => Files f' m)
      f r :=
  wp_onOther (fun _ _ _ _ _ => ⟨h.frame rfl rfl rfl, hv.frame rfl rfl⟩) (fun _ _ => h.frame rfl rfl rfl)

theorem reset_exact {p : Sub σ τ Bool} (h : Files f m) (hv : Vars r m) :
    wp A (resetOther p) (fun _ f' r' => Files f' m ∧ Vars r' m) (fun _ f' r' => Files f' m ∧ Vars r' m)
      (fun f' _ => Files f' m) f r := by
  unfold resetOther
  apply wp_bind
  apply wp_sub
  · intro env w _ _; exact wp_pure ⟨h.frame rfl rfl rfl, hv.frame rfl rfl⟩
  · intro _ o t; exact ⟨h.frame rfl rfl rfl, hv.frame rfl rfl⟩
  · intro _ o t; exact h.frame rfl rfl rfl

theorem ndef_exact {p : Ndef.M Reply} (hm : ∀ (A : Fault → Prop) f r, wp A p (fun _ _ _ => True) (fun _ _ _ => True)
      (fun _ _ => True) f r) (h : Files f m) (hv : Vars r m) :
    wp A (onNdef p) (fun _ f' r' => Files f' m ∧ Vars r' m) (fun _ f' r' => Files f' m ∧ Vars r' m)
      (fun f' _ => Files f' m) f r :=
  wp_any_ndef hm (fun _ _ _ => ⟨h.frame rfl rfl rfl, hv.frame rfl rfl⟩)
    (fun _ _ _ => ⟨h.frame rfl rfl rfl, hv.frame rfl rfl⟩) (fun _ _ => h.frame rfl rfl rfl)

/-- The commands behind the PIN. -/
noncomputable def behind (m : Mach) (i : In) : (Reply → Prop) × Mach :=
  if i.c.ins = 0x21 then m.change i.c
  else if i.c.ins = 0x30 then m.writeSn i.c
  else if i.c.ins = 0x40 then m.config i.c
  else if i.c.ins = 0x41 then m.flashUsage i
  else if i.c.ins = 0x42 then m.readConfig i.c
  else if i.c.ins ∈ foreign then (Whatever, m)
  else (Just 0x6D00, m)

theorem gated_exact (hA : ¬ A .fail) (hl : i.c.data.length ≤ 255) (h : Files f m) (hv : Vars r m) :
    wp A (gated x i) (fun a f' r' => (behind m i).1 a ∧ Files f' (behind m i).2 ∧ Vars r' (behind m i).2)
      (fun a f' r' => (behind m i).1 a ∧ Files f' (behind m i).2 ∧ Vars r' (behind m i).2)
      (fun f' _ => Files f' m ∨
        i.c.ins = 0x21 ∧ (behind m i).1 (.resp [] 0x9000) ∧ Files f' { m with pin := i.c.data } ∨
        i.c.ins = 0x30 ∧ (behind m i).1 (.resp [] 0x9000) ∧ Files f' { m with sn := some [] }) f r := by
  unfold gated
  have far : ∀ {p : M σ τ Reply}, i.c.ins ∈ foreign → wp A p (fun _ f' r' => Files f' m ∧ Vars r' m)
      (fun _ f' r' => Files f' m ∧ Vars r' m) (fun f' _ => Files f' m) f r →
      wp A p (fun a f' r' => (behind m i).1 a ∧ Files f' (behind m i).2 ∧ Vars r' (behind m i).2)
      (fun a f' r' => (behind m i).1 a ∧ Files f' (behind m i).2 ∧ Vars r' (behind m i).2)
      (fun f' _ => Files f' m ∨
        i.c.ins = 0x21 ∧ (behind m i).1 (.resp [] 0x9000) ∧ Files f' { m with pin := i.c.data } ∨
        i.c.ins = 0x30 ∧ (behind m i).1 (.resp [] 0x9000) ∧ Files f' { m with sn := some [] }) f r := by
    intro p hi hw
    have e : behind m i = (Whatever, m) := by
      unfold behind
      rw [if_neg (fun e => by rw [e] at hi; revert hi; decide), if_neg (fun e => by rw [e] at hi; revert hi; decide),
        if_neg (fun e => by rw [e] at hi; revert hi; decide), if_neg (fun e => by rw [e] at hi; revert hi; decide),
        if_neg (fun e => by rw [e] at hi; revert hi; decide), if_pos hi]
    rw [e]
    exact wp_mono hw (fun _ _ _ h => ⟨trivial, h⟩) (fun _ _ _ h => ⟨trivial, h⟩) (fun _ _ h => .inl h)
  simp only [Bool.or_eq_true, beq_iff_eq]
  apply wp_ite
  · intro hi
    refine far ?_ (other_exact h hv)
    rcases hi with ((((hi | hi) | hi) | hi) | hi) | hi <;> rw [hi] <;> decide
  intro n1
  apply wp_ite
  · intro hi; exact far (by rw [hi]; decide) (reset_exact h hv)
  intro n2
  apply wp_ite
  · intro hi; exact far (by rw [hi]; decide) (reset_exact h hv)
  intro n3
  apply wp_ite
  · intro hi; exact far (by rw [hi]; decide) (reset_exact h hv)
  intro n4
  apply wp_ite
  · intro hi; exact far (by rw [hi]; decide) (ndef_exact (ndefInstall_any _) h hv)
  intro n5
  apply wp_ite
  · intro hi; exact far (by rw [hi]; decide) (ndef_exact (ndefToggle_any _) h hv)
  intro n6
  apply wp_ite
  · intro hi; exact far (by rw [hi]; decide) (reset_exact h hv)
  intro n7
  apply wp_ite
  · intro hi; exact far (by rw [hi]; decide) (reset_exact h hv)
  intro n8
  apply wp_ite
  · intro hi
    have e : behind m i = m.change i.c := by unfold behind; rw [if_pos hi]
    rw [e]
    refine wp_mono (change_exact hA hl h hv) (fun _ _ _ h => h) (fun _ _ _ h => h) ?_
    rintro f' r' (h' | ⟨h1, h2⟩)
    · exact .inl h'
    · exact .inr (.inl ⟨hi, h1, h2⟩)
  intro n9
  apply wp_ite
  · intro hi
    have e : behind m i = m.writeSn i.c := by unfold behind; rw [if_neg n9, if_pos hi]
    rw [e]
    refine wp_mono (sn_exact hA h hv) (fun _ _ _ h => h) (fun _ _ _ h => h) ?_
    rintro f' r' (h' | ⟨h1, h2⟩)
    · exact .inl h'
    · exact .inr (.inr ⟨hi, h1, h2⟩)
  intro n10
  apply wp_ite
  · intro hi
    have e : behind m i = m.config i.c := by unfold behind; rw [if_neg n9, if_neg n10, if_pos hi]
    rw [e]
    exact wp_mono (config_exact hA h hv) (fun _ _ _ h => h) (fun _ _ _ h => h) (fun _ _ h => .inl h)
  intro n11
  apply wp_ite
  · intro hi
    have e : behind m i = m.flashUsage i := by unfold behind; rw [if_neg n9, if_neg n10, if_neg n11, if_pos hi]
    rw [e]
    exact wp_mono (usage_exact h hv) (fun _ _ _ h => h) (fun _ _ _ h => h) (fun _ _ h => .inl h)
  intro n12
  apply wp_ite
  · intro hi
    have e : behind m i = m.readConfig i.c := by
      unfold behind; rw [if_neg n9, if_neg n10, if_neg n11, if_neg n12, if_pos hi]
    rw [e]
    exact wp_mono (readConfig_exact h hv) (fun _ _ _ h => h) (fun _ _ _ h => h) (fun _ _ h => .inl h)
  intro n13
  apply wp_ite
  · intro hi; exact far (by rw [hi]; decide) (wp_pure ⟨h, hv⟩)
  intro n14
  have hn : i.c.ins ∉ foreign := by
    intro hm
    simp only [foreign, List.mem_cons, List.not_mem_nil, or_false] at hm
    simp only [not_or] at n1
    rcases hm with hm | hm | hm | hm | hm | hm | hm | hm | hm | hm | hm | hm | hm | hm <;> simp_all
  have e : behind m i = (Just 0x6D00, m) := by
    unfold behind; rw [if_neg n9, if_neg n10, if_neg n11, if_neg n12, if_neg n13, if_neg hn]
  exact wp_throw (says e rfl h hv)

theorem process_exact (hx : x.neq ≠ 0 ∧ x.neq ≠ 1) (hA : ¬ A .fail) (hl : i.c.data.length ≤ 255)
    (hf : i.c.ins = 0x50 → ¬ A .cut ∧ ResetsWork A x) (h : Files f m) (hv : Vars r m) :
    wp A (process x i) (fun a f' r' => (m.command i).1 a ∧ Files f' (m.command i).2 ∧ Vars r' (m.command i).2)
      (fun a f' r' => (m.command i).1 a ∧ Files f' (m.command i).2 ∧ Vars r' (m.command i).2)
      (fun f' _ => Left m i f') f r := by
  have e := Mach.command.eq_def m i
  simp only [] at e
  unfold process
  simp only [beq_iff_eq, Cmd.throw_bind]
  apply wp_ite
  · intro hi
    rw [if_pos hi] at e
    apply wp_ite
    · intro h1
      rw [if_pos (by simpa using h1)] at e
      exact wp_throw (says e rfl h hv)
    · intro h1
      rw [if_neg (by simpa using h1)] at e
      exact wp_pure (says e rfl h hv)
  intro n1; rw [if_neg n1] at e
  apply wp_ite
  · intro hi
    rw [if_pos hi] at e
    apply wp_ite
    · intro h1
      rw [if_pos (by simpa using h1)] at e
      exact wp_throw (says e rfl h hv)
    · intro h1
      rw [if_neg (by simpa using h1)] at e
      exact wp_pure (says e trivial h hv)
  intro n2; rw [if_neg n2] at e
  apply wp_ite
  · intro hi
    rw [if_neg (by rw [hi]; decide), if_pos hi] at e
    have e' := Mach.readSn.eq_def m i.c
    apply wp_ite
    · intro h1
      rw [if_pos (by simpa using h1)] at e'
      exact wp_throw (says (e.trans e') rfl h hv)
    intro h1
    have h1 : ¬ (1 < i.c.p1 ∨ i.c.p2 ≠ 0) := by simpa using h1
    rw [if_neg h1] at e'
    apply wp_ite
    · intro h2
      rw [e]
      exact wp_mono (readSn_exact hA h hv h1 h2) (fun _ _ _ h => h) (fun _ _ _ h => h) (fun _ _ h => .none h)
    · intro h2
      have h3 : i.c.p1 = 1 := by
        have : ¬ 1 < i.c.p1 := fun h => h1 (.inl h)
        apply UInt8.toNat_inj.mp
        have h4 : i.c.p1.toNat ≠ 0 := fun e => h2 (UInt8.toNat_inj.mp e)
        have h5 : ¬ (1 : UInt8).toNat < i.c.p1.toNat := fun h => this (UInt8.lt_iff_toNat_lt.2 h)
        have h6 : (1 : UInt8).toNat = 1 := rfl
        omega
      rw [if_pos h3] at e'
      exact wp_pure (says (e.trans e') trivial h hv)
  intro n3
  apply wp_ite
  · intro hi
    rw [if_pos hi] at e
    exact wp_pure (says e trivial h hv)
  intro n4; rw [if_neg n4, if_neg n3] at e
  apply wp_ite
  · intro hi
    rw [if_pos hi] at e
    rw [e]
    exact wp_mono (factory_exact hA (hf hi).1 (hf hi).2 h hv) (fun _ _ _ h => h) (fun _ _ _ h => h) (fun _ _ h => h.elim)
  intro n5; rw [if_neg n5] at e
  apply wp_ite
  · intro hi
    rw [if_pos hi] at e
    rw [e]
    exact wp_mono (verify_exact hx hA hl h hv) (fun _ _ _ h => h) (fun _ _ _ h => h) (fun _ _ h => .none h)
  intro n6; rw [if_neg n6] at e
  apply wp_bind; apply wp_get
  rw [hv.pin]
  apply wp_ite
  · intro h1
    have h1 : m.shown = false := by simpa using h1
    rw [if_pos h1] at e
    exact wp_throw (says e rfl h hv)
  intro h1
  have h1 : m.shown = true := by simpa using h1
  rw [if_neg (by simp [h1])] at e
  change m.command i = behind m i at e
  unfold Left Mach.torn
  rw [e]
  refine wp_mono (gated_exact hA hl h hv) (fun _ _ _ h => h) (fun _ _ _ h => h) ?_
  rintro f' r' (h' | ⟨hi, h2, h'⟩ | ⟨hi, h2, h'⟩)
  · exact ⟨_, .inl rfl, h'⟩
  · exact ⟨_, .inr (.inr (.inl ⟨h1, hi, h2, rfl⟩)), h'⟩
  · exact ⟨_, .inr (.inr (.inr ⟨h1, hi, h2, rfl⟩)), h'⟩

theorem pow_ite {c : Prop} [Decidable c] {a b : (Reply → Prop) × Mach} (h1 : a.2.powered = true) (h2 : b.2.powered = true) :
    (if c then a else b).2.powered = true := by split <;> assumption

theorem command_powered (hp : m.powered = true) : (m.command i).2.powered = true := by
  unfold Mach.command Mach.readSn Mach.factory Mach.verify Mach.change Mach.writeSn Mach.config Mach.flashUsage
    Mach.readConfig Mach.new
  repeat' first | exact hp | rfl | apply pow_ite | split

/-! ### Boot -/

theorem boot_gen {P R Y : Flash σ → Prop} {V : Ram τ → Prop}
    (hP : ∀ f o, P f → P { f with others := o })
    (hRn : ∀ f p, R f → R { f with ndef := p }) (hRo : ∀ f o, R f → R { f with others := o })
    (hVn : ∀ r p, V r → V { r with ndef := p }) (hVo : ∀ r o, V r → V { r with others := o })
    (hPY : ∀ f, P f → Y f) (hRY : ∀ f, R f → Y f)
    (hi : ∀ f r, P f → wp A (install false : M σ τ Unit) (fun _ f' r' => R f' ∧ V r') (fun _ f' r' => R f' ∧ V r')
      (fun f' _ => Y f') f r) (hf : P f) :
    wp A (Cmd.lift (boot x) : M σ τ Unit) (fun _ f' r' => R f' ∧ V r') (fun _ _ _ => False) (fun f' _ => Y f') f r := by
  unfold boot
  simp only [lift_bind, lift_pure]
  have oth : ∀ {α : Type} (m : Sub σ τ α) (f' : Flash σ) (r' : Ram τ) {E : Reply → Flash σ → Ram τ → Prop}, P f' →
      wp A (Cmd.lift (onOther m : M σ τ α).run : M σ τ _) (fun _ f'' _ => P f'') E (fun f'' _ => Y f'') f' r' := by
    intro α m f' r' E h
    refine wp_run (R := fun f'' _ => P f'') ?_
    apply wp_onOther
    · intro env a w _ _; exact hP _ _ h
    · intro o t; exact hPY _ (hP _ _ h)
  have oth' : ∀ {α : Type} (m : Sub σ τ α) (f' : Flash σ) (r' : Ram τ) {E : Reply → Flash σ → Ram τ → Prop}, R f' → V r' →
      wp A (Cmd.lift (onOther m : M σ τ α).run : M σ τ _) (fun _ f'' r'' => R f'' ∧ V r'') E (fun f'' _ => Y f'') f' r' := by
    intro α m f' r' E h h'
    refine wp_run (R := fun f'' r'' => R f'' ∧ V r'') ?_
    apply wp_onOther
    · intro env a w _ _; exact ⟨hRo _ _ h, hVo _ _ h'⟩
    · intro o t; exact hRY _ (hRo _ _ h)
  apply wp_bind
  refine wp_mono (oth _ f r hf) ?_ (fun _ _ _ h => h) (fun _ _ h => h)
  intro _ f1 r1 h1
  apply wp_bind
  refine wp_mono (oth _ f1 r1 h1) ?_ (fun _ _ _ h => h) (fun _ _ h => h)
  intro _ f2 r2 h2
  apply wp_bind
  refine wp_mono (oth _ f2 r2 h2) ?_ (fun _ _ _ h => h) (fun _ _ h => h)
  intro _ f3 r3 h3
  apply wp_bind
  refine wp_mono (oth _ f3 r3 h3) ?_ (fun _ _ _ h => h) (fun _ _ h => h)
  intro _ f4 r4 h4
  apply wp_bind
  refine wp_mono (wp_run (hi f4 r4 h4)) ?_ (fun _ _ _ h => h) (fun _ _ h => h)
  rintro _ f5 r5 ⟨h5, h5'⟩
  apply wp_bind
  have tail : ∀ p q, wp A (do
      let _ ← Cmd.lift (onOther (x.pass false) : M σ τ Bool).run
      pure () : M σ τ Unit) (fun _ f' r' => R f' ∧ V r') (fun _ _ _ => False) (fun f' _ => Y f')
      { f5 with ndef := p } { r5 with ndef := q } := by
    intro p q
    apply wp_bind
    exact wp_mono (oth' _ _ _ (hRn _ _ h5) (hVn _ _ h5')) (fun _ _ _ h => wp_pure h) (fun _ _ _ h => h) (fun _ _ h => h)
  refine wp_run (R := fun f' r' => wp A (do
      let _ ← Cmd.lift (onOther (x.pass false) : M σ τ Bool).run
      pure () : M σ τ Unit) (fun _ f' r' => R f' ∧ V r') (fun _ _ _ => False) (fun f' _ => Y f') f' r') ?_
  exact wp_any_ndef (ndefInstall_any _) (fun _ p q => tail p q) (fun _ p q => tail p q) (fun p _ => hRY _ (hRn _ _ h5))

/-- A boot of an installed device. -/
theorem install_kept (hA : ¬ A .fail) (h : Files f m) : wp A (install false : M σ τ Unit)
    (fun _ f' r' => Files f' m ∧ Vars r' { m with shown := false })
    (fun _ f' r' => Files f' m ∧ Vars r' { m with shown := false }) (fun f' _ => Files f' m) f r := by
  unfold install
  simp only [Bool.false_eq_true, if_false]
  apply wp_bind; apply wp_mod
  apply wp_bind; apply wp_bind; apply wp_rdF
  rotate_left
  · intro h'; exact absurd h' hA
  · intro _; exact h
  intro _
  apply wp_pure
  rw [h.cfg]
  simp only [Option.isNone_some, Bool.false_eq_true, if_false]
  apply wp_bind; apply wp_rdOr
  · intro c hc
    rw [h.cfg] at hc; cases hc
    apply wp_bind; apply wp_mod
    apply wp_bind; apply wp_bind; apply wp_rdF
    rotate_left
    · intro h'; exact absurd h' hA
    · intro _; exact h
    intro _
    apply wp_pure
    obtain ⟨c, hc, -⟩ := h.pin
    rw [hc]
    exact wp_pure ⟨h, ⟨rfl, rfl⟩⟩
  · intro h'; rw [h.cfg] at h'; cases h'
  · intro h'; exact absurd h' hA
  · intro _; exact h

/-- The first boot. -/
theorem install_first {sn : Option Bytes} (h : f.pin = none ∧ f.cfg = none ∧ f.sn = sn) :
    wp noFault (install false : M σ τ Unit)
    (fun _ f' r' => Files f' (.new sn) ∧ Vars r' (.new sn))
    (fun _ f' r' => Files f' (.new sn) ∧ Vars r' (.new sn)) (fun _ _ => True) f r := by
  unfold install
  simp only [Bool.false_eq_true, if_false]
  apply wp_bind; apply wp_mod
  apply wp_bind; apply wp_bind; apply wp_rdF
  rotate_left
  · intro h'; cases h'
  · intro _; trivial
  intro _
  apply wp_pure
  rw [h.2.1]
  simp only [Option.isNone_none, if_true]
  apply wp_bind; apply wp_mod
  apply wp_bind; apply wp_wrOr
  · intro f' hf; cases hf
    apply wp_bind; apply wp_bind; apply wp_rdF
    rotate_left
    · intro h'; cases h'
    · intro _; trivial
    intro _
    apply wp_pure
    rw [h.1]
    simp only [Option.isNone_none, if_true]
    apply wp_bind
    refine wp_onPin (Pin.create_wp (b := defaultPin) (n := 3)) ?_ ?_
    · rintro a p q ⟨h', rfl⟩
      cases h' with
      | io f' h hf => cases h
      | done => exact wp_pure ⟨⟨⟨3, rfl, rfl⟩, ⟨Nat.le_refl 6, Nat.le_of_ble_eq_true rfl⟩, h.2.2, rfl⟩, ⟨rfl, rfl⟩⟩
    · intros; trivial
  · intro h; cases h
  · intro h; cases h
  · intro h; trivial

/-! ### Histories -/

/-- The device is in the state the machine says. -/
structure Same (s : St σ τ) (m : Mach) : Prop where
  files : Files s.flash m
  on : ∀ r, s.ram = some r → m.powered = true ∧ Vars r m
  off : s.ram = none → m.powered = false ∧ m.shown = false

theorem Files.off (h : Files f m) : Files f m.off := ⟨h.pin, h.len, h.sn, h.cfg⟩

theorem same_off (h : Files f m) : Same (⟨f, none⟩ : St σ τ) m.off :=
  ⟨h.off, (fun _ h => by cases h), fun _ => ⟨rfl, rfl⟩⟩

theorem cuts_no_fail : ¬ cutsOnly .fail := fun h => h rfl

theorem boot_same {s : St σ τ} {t : τ} {env : Env} (he : env.all cutsOnly)
    (hs : Files s.flash m) :
    ∃ m', m.Next (.boot t : Op σ τ) (step x s (.boot t) env).2 m' ∧ Same (step x s (.boot t) env).1 m' := by
  have hw := boot_gen (A := cutsOnly) (x := x) (f := s.flash) (r := Ram.init t) (P := fun f => Files f m)
    (R := fun f => Files f m) (Y := fun f => Files f m) (V := fun r => Vars r { m with shown := false })
    (fun _ _ h => h.frame rfl rfl rfl) (fun _ _ h => h.frame rfl rfl rfl) (fun _ _ h => h.frame rfl rfl rfl)
    (fun _ _ h => h.frame rfl rfl) (fun _ _ h => h.frame rfl rfl) (fun _ h => h) (fun _ h => h)
    (fun _ _ h => install_kept cuts_no_fail h) hs env he
  rw [Cmd.lift_run] at hw
  have e : step x s (.boot t) env = match boot x ⟨s.flash, Ram.init t, env⟩ with
      | (none, w) => (⟨w.flash, none⟩, .cut)
      | (some _, w) => (⟨w.flash, some w.ram⟩, .none) := rfl
  rw [e]
  cases hb : boot x ⟨s.flash, Ram.init t, env⟩ with
  | mk o w =>
    rw [hb] at hw
    cases o with
    | none => exact ⟨_, .bootCut, same_off hw⟩
    | some _ =>
      obtain ⟨⟨h1, h2⟩, -⟩ := hw
      exact ⟨_, .boot, ⟨⟨h1.pin, h1.len, h1.sn, h1.cfg⟩, (fun r hr => by cases hr; exact ⟨rfl, ⟨h2.pin, h2.cfg⟩⟩), (fun h => by cases h)⟩⟩

theorem run_out {p : M σ τ Reply} {P : Reply → Flash σ → Ram τ → Prop} {X : Flash σ → Ram τ → Prop}
    (h : wp A p P P X f r) {env : Env} (henv : env.all A) :
    (∃ f' r', exec p f r env = (⟨f', none⟩, .cut) ∧ X f' r') ∨
    (∃ f' r' a, exec p f r env = (⟨f', some r'⟩, .reply a) ∧ P a f' r') := by
  have h1 := runCmd_of_wp (P := fun o f' r' => match o with | .cut => X f' r' | .done a => P a f' r') h henv
  unfold exec
  cases hr : runCmd p f r env with
  | mk f' q =>
    obtain ⟨r', o⟩ := q
    rw [hr] at h1
    cases o with
    | cut => exact .inl ⟨f', r', rfl, h1⟩
    | done a => exact .inr ⟨f', r', a, rfl, h1⟩

theorem step_same (hx : x.neq ≠ 0 ∧ x.neq ≠ 1) (hw : ResetsWork noFault x) {s : St σ τ} {op : Op σ τ} {env : Env}
    (he : env.all cutsOnly) (hr : IsFactory op → env.all noFault) (hl : Short op) (hs : Same s m) :
    ∃ m', m.Next op (step x s op env).2 m' ∧ Same (step x s op env).1 m' := by
  obtain ⟨f, o⟩ := s
  have on : ∀ {r' : Ram τ} {f' : Flash σ} {m' : Mach}, Files f' m' → Vars r' m' → m'.powered = true →
      Same (⟨f', some r'⟩ : St σ τ) m' := fun h1 h2 h3 => ⟨h1, (fun r hr => by cases hr; exact ⟨h3, h2⟩), (fun h => by cases h)⟩
  cases op with
  | boot t => exact boot_same he hs.files
  | apdu i =>
    cases o with
    | none => exact ⟨m, .off (hs.off rfl).1 (fun t h => by cases h), hs⟩
    | some r =>
      obtain ⟨hp, hv⟩ := hs.on r rfl
      show ∃ m', m.Next (.apdu i : Op σ τ) (exec (process x i) f r env).2 m' ∧ Same (exec (process x i) f r env).1 m'
      have fin : ∀ {A : Fault → Prop}, env.all A → ¬ A .fail → (i.c.ins = 0x50 → ¬ A .cut ∧ ResetsWork A x) →
          ∃ m', m.Next (.apdu i : Op σ τ) (exec (process x i) f r env).2 m' ∧ Same (exec (process x i) f r env).1 m' := by
        intro A hA h1 h2
        rcases run_out (process_exact hx h1 hl h2 hs.files hv) hA with ⟨f', r', e, h'⟩ | ⟨f', r', a, e, h'⟩ <;> rw [e]
        · obtain ⟨m', h3, h4⟩ := h'
          exact ⟨_, .cut hp h3, same_off h4⟩
        · exact ⟨_, .answer hp h'.1, on h'.2.1 h'.2.2 (command_powered hp)⟩
      by_cases hi : i.c.ins = 0x50
      · exact fin (hr hi) (fun h => by cases h) (fun _ => ⟨(fun h => by cases h), hw⟩)
      · exact fin he cuts_no_fail (fun h => absurd h hi)
  | ndef i =>
    cases o with
    | none => exact ⟨m, .off (hs.off rfl).1 (fun t h => by cases h), hs⟩
    | some r =>
      obtain ⟨hp, hv⟩ := hs.on r rfl
      show ∃ m', m.Next (.ndef i : Op σ τ) (exec (onNdef (Ndef.process i)) f r env).2 m' ∧ Same (exec (onNdef (Ndef.process i)) f r env).1 m'
      rcases run_out (ndef_exact (ndefProcess_any i) hs.files hv) he with ⟨f', r', e, h'⟩ | ⟨f', r', a, e, h'⟩ <;> rw [e]
      · exact ⟨_, .ndefCut hp, same_off h'⟩
      · exact ⟨_, .ndef hp, on h'.1 h'.2 hp⟩
  | other p =>
    cases o with
    | none => exact ⟨m, .off (hs.off rfl).1 (fun t h => by cases h), hs⟩
    | some r =>
      obtain ⟨hp, hv⟩ := hs.on r rfl
      show ∃ m', m.Next (.other p : Op σ τ) (exec (onOther p) f r env).2 m' ∧ Same (exec (onOther p) f r env).1 m'
      rcases run_out (other_exact hs.files hv) he with ⟨f', r', e, h'⟩ | ⟨f', r', a, e, h'⟩ <;> rw [e]
      · exact ⟨_, .otherCut hp, same_off h'⟩
      · exact ⟨_, .other hp, on h'.1 h'.2 hp⟩
  | deselect =>
    cases o with
    | none => exact ⟨m, .off (hs.off rfl).1 (fun t h => by cases h), hs⟩
    | some r =>
      obtain ⟨hp, hv⟩ := hs.on r rfl
      have h := hs.files
      exact ⟨_, .deselect hp, on ⟨h.pin, h.len, h.sn, h.cfg⟩ ⟨rfl, hv.cfg⟩ hp⟩

theorem trace_append {l l' : List (Op σ τ × Out)} {m m' m'' : Mach} (h : m.Trace l m') (h' : m'.Trace l' m'') :
    m.Trace (l ++ l') m'' := by
  induction h with
  | nil => exact h'
  | cons hn _ ih => exact .cons hn (ih h')

theorem run_same (hx : x.neq ≠ 0 ∧ x.neq ≠ 1) (hw : ResetsWork noFault x) {h : List (Op σ τ × Env)}
    (he : ∀ e ∈ h, e.2.all cutsOnly ∧ (IsFactory e.1 → e.2.all noFault) ∧ Short e.1) {s : St σ τ}
    {log : List (St σ τ × Op σ τ × Out)} {m0 : Mach}
    (ht : m0.Trace (observed log) m) (hs : Same s m) :
    ∃ m', m0.Trace (observed (run x s log h).2) m' ∧ Same (run x s log h).1 m' := by
  induction h generalizing s log m with
  | nil => exact ⟨m, ht, hs⟩
  | cons e h ih =>
    obtain ⟨op, env⟩ := e
    have h1 := he (op, env) (by simp)
    obtain ⟨m', hn, hs'⟩ := step_same (op := op) hx hw h1.1 h1.2.1 h1.2.2 hs
    refine ih (fun e he' => he e (by simp [he'])) ?_ hs'
    have : observed ((s, op, (step x s op env).2) :: log) = observed log ++ [(op, (step x s op env).2)] := by
      simp [observed]
    rw [this]
    exact trace_append ht (.cons hn .nil)

end Verif.Admin
