import Verif.Props.CardAdm
import Verif.Lemmas.PgpStep
import Verif.Lemmas.PivAdm
import Verif.Spec.CardReset
import Verif.Props.CtapReset
/-
The resets of the admin applet on the whole card.
-/
namespace Verif.Card
open Spec.Card
open Spec.Admin (Did)
open Apdu (Capdu Rapdu Applet)

variable {x : Ext} {A : Fault → Prop}

/-! ### What each installation does when it reports success -/

theorem succeeds_wp {φ ρ ε α : Type} {m : Cmd φ ρ ε α} {Q : α → φ → ρ → Prop} {E : ε → φ → ρ → Prop}
    {X : φ → ρ → Prop} {f : φ} {r : ρ} (h : Cmd.wp A m Q E X f r) {env : Env} (he : env.all A) :
    ∀ w : World φ ρ, succeeds m ⟨f, r, env⟩ = (some true, w) → ∃ a, Q a w.flash w.ram := by
  intro w hs
  have h1 := h env he
  unfold succeeds at hs
  generalize m.run ⟨f, r, env⟩ = res at h1 hs
  obtain ⟨o, w'⟩ := res
  rcases o with _ | (_ | a)
  · cases hs
  · cases hs
  · cases hs; exact ⟨a, h1.1⟩

theorem did_pgp {o o' : Fl} {t t' : Rm} (h : Did A (pgpSub true) o t o' t') :
    o' = { o with pgp := Spec.Pgp.factory } ∧ t'.rnd = t.rnd := by
  obtain ⟨env, e', he, h⟩ := h
  have e : (pgpSub true).val ⟨o, t, env⟩ = FsM.zoom pgpF pgpR (succeeds (Pgp.install true)) ⟨o, t, env⟩ := rfl
  rw [e] at h
  unfold FsM.zoom at h
  have hw : Cmd.wp A (Pgp.install true) (fun _ f' _ => f' = Spec.Pgp.factory) (fun _ _ _ => True) (fun _ _ => True)
      o.pgp t.pgp := by
    unfold Pgp.install
    apply Cmd.wp_bind; apply Cmd.wp_mod
    rw [if_pos rfl]
    exact Cmd.wp_mono Pgp.installAll_wp (fun _ _ _ h => h.1) (fun _ _ _ _ => trivial) (fun _ _ _ => trivial)
  have h2 := succeeds_wp hw he
  have hg : succeeds (Pgp.install true) ⟨pgpF.get o, pgpR.get t, env⟩ = succeeds (Pgp.install true) ⟨o.pgp, t.pgp, env⟩ := rfl
  rw [hg] at h
  generalize succeeds (Pgp.install true) ⟨o.pgp, t.pgp, env⟩ = res at h h2
  obtain ⟨b, w⟩ := res
  cases h
  obtain ⟨_, h3⟩ := h2 _ rfl
  exact ⟨by show ({ o with pgp := _ } : Fl) = _; rw [h3], rfl⟩

theorem did_piv {o o' : Fl} {t t' : Rm} (h : Did A (pivSub true) o t o' t') :
    (∃ a, o' = { o with piv := Spec.Piv.factory t.rnd.piv a }) ∧ t'.rnd = t.rnd := by
  obtain ⟨env, e', he, h⟩ := h
  have e : (pivSub true).val ⟨o, t, env⟩ =
    FsM.zoom pivF pivR (succeeds (Piv.install true t.rnd.piv)) ⟨o, t, env⟩ := rfl
  rw [e] at h
  unfold FsM.zoom at h
  have h2 := succeeds_wp (Piv.install_wp (A := A) (f := o.piv) (r := t.piv) true t.rnd.piv) he
  have hg : succeeds (Piv.install true t.rnd.piv) ⟨pivF.get o, pivR.get t, env⟩ =
    succeeds (Piv.install true t.rnd.piv) ⟨o.piv, t.piv, env⟩ := rfl
  rw [hg] at h
  generalize succeeds (Piv.install true t.rnd.piv) ⟨o.piv, t.piv, env⟩ = res at h h2
  obtain ⟨b, w⟩ := res
  cases h
  obtain ⟨_, h3⟩ := h2 _ rfl
  obtain ⟨a, h4⟩ := h3.2 rfl
  exact ⟨⟨a, by show ({ o with piv := _ } : Fl) = _; rw [h4]⟩, rfl⟩

theorem oath_reset_wp (id : Bytes) (f : Oath.Flash) (r : Oath.Ram) :
    Cmd.wp A (Oath.install true id) (fun _ f' _ => f' = { f with oath := some (oathErased id) })
      (fun _ _ _ => True) (fun _ _ => True) f r := by
  unfold Oath.install
  apply Cmd.wp_bind; apply Cmd.wp_mod
  apply Cmd.wp_bind
  have h : Cmd.wp A (do
      Cmd.wrOr (fun f => some { f with oath := some { (f.oath.getD ⟨[], none, none⟩) with recs := [] } }) Oath.ioErr
      Cmd.wrOr (fun f => f.oath.map fun o => { f with oath := some { o with key := some [] } }) Oath.ioErr
      Cmd.wrOr (fun f => f.oath.map fun o => { f with oath := some { o with handle := some id } }) Oath.ioErr
      return .sw SW.ok : Oath.M Reply) (fun _ f' _ => f' = { f with oath := some (oathErased id) })
      (fun _ _ _ => True) (fun _ _ => True) f (Oath.poweroff r) := by
    apply Cmd.wp_bind; apply Cmd.wp_wrOr <;> try (intro _; trivial)
    intro f1 h1; cases h1
    apply Cmd.wp_bind; apply Cmd.wp_wrOr <;> try (intro _; trivial)
    intro f2 h2; cases h2
    apply Cmd.wp_bind; apply Cmd.wp_wrOr <;> try (intro _; trivial)
    intro f3 h3; cases h3
    exact Cmd.wp_pure rfl
  apply Cmd.wp_rdF
  · intro _; rw [if_neg (by simp)]; exact h
  · intro _; rw [if_neg (by simp)]; exact h
  · intro _; trivial

theorem did_oath {o o' : Fl} {t t' : Rm} (h : Did A (oathSub true) o t o' t') :
    o' = { o with oath := { o.oath with oath := some (oathErased t.rnd.oath) } } ∧ t'.rnd = t.rnd := by
  obtain ⟨env, e', he, h⟩ := h
  have e : (oathSub true).val ⟨o, t, env⟩ =
    FsM.zoom oathF oathR (succeeds (Oath.install true t.rnd.oath)) ⟨o, t, env⟩ := rfl
  rw [e] at h
  unfold FsM.zoom at h
  have h2 := succeeds_wp (oath_reset_wp (A := A) t.rnd.oath o.oath t.oath) he
  have hg : succeeds (Oath.install true t.rnd.oath) ⟨oathF.get o, oathR.get t, env⟩ =
    succeeds (Oath.install true t.rnd.oath) ⟨o.oath, t.oath, env⟩ := rfl
  rw [hg] at h
  generalize succeeds (Oath.install true t.rnd.oath) ⟨o.oath, t.oath, env⟩ = res at h h2
  obtain ⟨b, w⟩ := res
  cases h
  obtain ⟨_, h3⟩ := h2 _ rfl
  exact ⟨by show ({ o with oath := _ } : Fl) = _; rw [h3], rfl⟩

theorem pass_reset_wp (f : Oath.Flash) (r : Oath.Ram) :
    Cmd.wp A (Oath.passInstall true) (fun _ f' _ => f' = { f with pass := some (.off, .off) })
      (fun _ _ _ => True) (fun _ _ => True) f r := by
  unfold Oath.passInstall
  apply Cmd.wp_bind
  have h : Cmd.wp A (do
      Cmd.mod fun r => { r with slot0 := .off, slot1 := .off }
      let r ← Cmd.get
      Cmd.wrOr (Oath.updPass r) Oath.ioErr
      return .sw SW.ok : Oath.M Reply) (fun _ f' _ => f' = { f with pass := some (.off, .off) })
      (fun _ _ _ => True) (fun _ _ => True) f r := by
    apply Cmd.wp_bind; apply Cmd.wp_mod
    apply Cmd.wp_bind; apply Cmd.wp_get
    apply Cmd.wp_bind; apply Cmd.wp_wrOr <;> try (intro _; trivial)
    intro f3 h3; cases h3
    exact Cmd.wp_pure rfl
  apply Cmd.wp_rdF
  · intro _; rw [if_pos (by simp)]; exact h
  · intro _; rw [if_pos (by simp)]; exact h
  · intro _; trivial

theorem did_pass {o o' : Fl} {t t' : Rm} (h : Did A (passSub true) o t o' t') :
    o' = { o with oath := { o.oath with pass := some (.off, .off) } } ∧ t'.rnd = t.rnd := by
  obtain ⟨env, e', he, h⟩ := h
  have e : (passSub true).val ⟨o, t, env⟩ = FsM.zoom oathF oathR (succeeds (Oath.passInstall true)) ⟨o, t, env⟩ := rfl
  rw [e] at h
  unfold FsM.zoom at h
  have h2 := succeeds_wp (pass_reset_wp (A := A) o.oath t.oath) he
  have hg : succeeds (Oath.passInstall true) ⟨oathF.get o, oathR.get t, env⟩ =
    succeeds (Oath.passInstall true) ⟨o.oath, t.oath, env⟩ := rfl
  rw [hg] at h
  generalize succeeds (Oath.passInstall true) ⟨o.oath, t.oath, env⟩ = res at h h2
  obtain ⟨b, w⟩ := res
  cases h
  obtain ⟨_, h3⟩ := h2 _ rfl
  exact ⟨by show ({ o with oath := _ } : Fl) = _; rw [h3], rfl⟩

theorem did_ctap {o o' : Fl} {t t' : Rm} (h : Did A (ctapSub true) o t o' t') :
    ∃ c, o' = { o with ctap := c } ∧ t'.rnd = t.rnd ∧ (¬ A .fail → FidoErased t.rnd.ctap c) := by
  obtain ⟨env, e', he, h⟩ := h
  have e : (ctapSub true).val ⟨o, t, env⟩ = FsM.zoom ctapF ctapR
    (shows (Ctap.install t.rnd.ctap true) (fun _ => .done) >>= fun _ => pure true) ⟨o, t, env⟩ := rfl
  rw [e] at h
  unfold FsM.zoom at h
  have hw := Ctap.wp_reset (A := A) t.rnd.ctap o.ctap t.ctap env he
  have hg : (shows (Ctap.install t.rnd.ctap true) (fun _ => .done) >>= fun _ => (pure true : FsM Ctap.Flash Ctap.Ram Bool))
      ⟨ctapF.get o, ctapR.get t, env⟩ = match (Ctap.install t.rnd.ctap true).run ⟨o.ctap, t.ctap, env⟩ with
        | (none, w) => (none, w)
        | (some _, w) => (some true, w) := by
    show FsM.bind _ _ _ = _
    unfold FsM.bind
    have e : shows (Ctap.install t.rnd.ctap true) (fun _ => .done) ⟨ctapF.get o, ctapR.get t, env⟩ =
      shows (Ctap.install t.rnd.ctap true) (fun _ => .done) ⟨o.ctap, t.ctap, env⟩ := rfl
    rw [e]
    unfold shows
    generalize (Ctap.install t.rnd.ctap true).run ⟨o.ctap, t.ctap, env⟩ = res
    obtain ⟨b, w⟩ := res
    rcases b with _ | ((_ | _) | _) <;> rfl
  rw [hg] at h
  generalize (Ctap.install t.rnd.ctap true).run ⟨o.ctap, t.ctap, env⟩ = res at h hw
  obtain ⟨b, w⟩ := res
  rcases b with _ | (_ | _)
  · cases h
  · cases h
    exact ⟨_, rfl, rfl, fun hn => absurd hw.1.1 hn⟩
  · cases h
    have h1 := hw.1
    exact ⟨_, rfl, rfl, fun _ => ⟨h1.pin, h1.creds, h1.metas, h1.counter, h1.blob, h1.kh, h1.he⟩⟩

/-! ### The commands -/

/-- The reset of another applet by a command. -/
theorem reset_did {σ τ : Type} {y : Admin.Ext σ τ} {m : Admin.Sub σ τ Bool} {f : Admin.Flash σ} {r : Admin.Ram τ}
    {i : Admin.In} {env : Env} {s' : Admin.St σ τ} (hi : i.c.ins ∉ Spec.Admin.openIns)
    (hg : Admin.gated y i = Admin.resetOther m) (he : env.all A)
    (h : Admin.step y ⟨f, some r⟩ (.apdu i) env = (s', .reply (.sw 0x9000))) :
    ∃ o t, Did A m f.others r.others o t ∧ s'.flash = { f with others := o } := by
  have e : Admin.step y ⟨f, some r⟩ (.apdu i) env = Admin.exec (Admin.process y i) f r env := rfl
  cases hv : r.pin.validated with
  | false =>
    rw [e, Admin.process_locked hi hv] at h
    cases h
  | true =>
    rw [e] at h
    simp only [Spec.Admin.openIns, List.mem_cons, List.not_mem_nil, or_false, not_or] at hi
    obtain ⟨h1, h2, h3, h4, h5, h6⟩ := hi
    have hp := Admin.exec_of_wp (A := A) (m := Admin.process y i) (f := f) (r := r)
      (P := fun o f' _ => o = .done (.sw SW.ok) →
        ∃ o t, Did A m f.others r.others o t ∧ f' = { f with others := o }) (env := env) (by
        unfold Admin.process
        simp only [Cmd.throw_bind, Cmd.pure_bind, beq_iff_eq, h1, h2, h3, h4, h5, h6, if_false]
        apply Cmd.wp_bind; apply Cmd.wp_get
        rw [hv]
        simp only [Bool.not_true, Bool.false_eq_true, if_false]
        rw [hg]
        unfold Admin.resetOther
        apply Cmd.wp_bind
        apply Admin.wp_sub
        · intro env w he h
          exact Cmd.wp_pure (fun _ => ⟨_, _, ⟨env, w.env, he, h⟩, rfl⟩)
        · intro _ o t h; cases h
        · intro _ o t h; cases h) he
    rcases hp with ⟨f', r1, e1, _⟩ | ⟨f', r1, a, e1, h'⟩ <;> rw [e1] at h <;> cases h
    exact h' rfl

theorem ndef_did {σ τ : Type} {y : Admin.Ext σ τ} {f : Admin.Flash σ} {r : Admin.Ram τ}
    {i : Admin.In} {env : Env} {s' : Admin.St σ τ} (hi : i.c.ins = 0x07)
    (h : Admin.step y ⟨f, some r⟩ (.apdu i) env = (s', .reply (.sw 0x9000))) :
    s'.flash = { f with ndef := ndefNew } := by
  have e : Admin.step y ⟨f, some r⟩ (.apdu i) env = Admin.exec (Admin.process y i) f r env := rfl
  cases hv : r.pin.validated with
  | false =>
    rw [e, Admin.process_locked (by rw [hi]; decide) hv] at h
    cases h
  | true =>
    rw [e] at h
    have hp := Admin.exec_of_wp (A := anyFault) (m := Admin.process y i) (f := f) (r := r)
      (P := fun o f' _ => o = .done (.sw SW.ok) → f' = { f with ndef := ndefNew }) (env := env) (by
        unfold Admin.process
        simp only [Cmd.throw_bind, Cmd.pure_bind, hi]
        apply Cmd.wp_bind; apply Cmd.wp_get
        rw [hv]
        simp only [Bool.not_true, Bool.false_eq_true, if_false]
        have e : Admin.gated y i = Admin.onNdef (Ndef.install true) := by unfold Admin.gated; simp only [hi]; rfl
        rw [e]
        apply Cmd.wp_zoom
        refine Cmd.wp_mono Admin.ndefReset_wp ?_ ?_ ?_
        · rintro a f' r' ⟨rfl, _⟩ _; rfl
        · rintro a f' r' ⟨rfl, _⟩ h; cases h
        · intro _ _ _ h; cases h) (Admin.anyAll env)
    rcases hp with ⟨f', r1, e1, _⟩ | ⟨f', r1, a, e1, h'⟩ <;> rw [e1] at h <;> cases h
    exact h' rfl

/-- C95: a reset of one applet that the admin applet answered with 9000, at any time and under any faults, has erased
this applet and changed nothing else on the card.  For FIDO this needs that no storage operation failed without loss of
power. -/
theorem C95_reset_erases_partial (s : St) (op : Op) (env : Env) (j : In) (k : Call)
    (hs : Handed .admin (s, op, (step x s op env).2) j k) (ho : k.ans = some (.sw 0x9000)) :
    ResetOne (env.all cutsOnly) j.rnd k.cmd.ins s.flash (step x s op env).1.flash := by
  obtain ⟨j', k', r1, hc, hi, h9⟩ := saw_call (o := .reply (.sw 0x9000)) ⟨j, k, hs, rfl, by rw [ho]; rfl⟩
  have hk : j' = j ∧ k' = k := by
    obtain ⟨_, ⟨c, h1⟩, h2, _⟩ := hs
    obtain ⟨c', h3⟩ := hc.op
    cases h1.symm.trans h3
    exact ⟨rfl, Option.some.inj (hc.call.symm.trans h2)⟩
  obtain ⟨rfl, rfl⟩ := hk
  have hst := hc.step
  rw [ho] at hst
  have cutsNo : ¬ cutsOnly .fail := fun h => h rfl
  refine ⟨fun h => ?_, fun h => ?_, fun h => ?_, fun h => ?_, fun h => ?_, fun h => ?_⟩
  · obtain ⟨o, t, hd, hf⟩ := reset_did (m := pgpSub true) (by rw [show ({ j'.adm with c := k'.cmd } : Admin.In).c.ins = 0x03 from h]; decide)
      (by unfold Admin.gated; simp only [h]; rfl) (Admin.anyAll env) hst
    rw [← (did_pgp hd).1]
    exact hf
  · obtain ⟨o, t, hd, hf⟩ := reset_did (m := pivSub true) (by rw [show ({ j'.adm with c := k'.cmd } : Admin.In).c.ins = 0x04 from h]; decide)
      (by unfold Admin.gated; simp only [h]; rfl) (Admin.anyAll env) hst
    obtain ⟨a, ha⟩ := (did_piv hd).1
    rw [hc.rnd] at ha
    exact ⟨a, by rw [← ha]; exact hf⟩
  · obtain ⟨o, t, hd, hf⟩ := reset_did (m := oathSub true) (by rw [show ({ j'.adm with c := k'.cmd } : Admin.In).c.ins = 0x05 from h]; decide)
      (by unfold Admin.gated; simp only [h]; rfl) (Admin.anyAll env) hst
    have ha := (did_oath hd).1
    rw [hc.rnd] at ha
    rw [← ha]
    exact hf
  · obtain ⟨o, t, hd, hf⟩ := reset_did (m := passSub true) (by rw [show ({ j'.adm with c := k'.cmd } : Admin.In).c.ins = 0x13 from h]; decide)
      (by unfold Admin.gated; simp only [h]; rfl) (Admin.anyAll env) hst
    rw [← (did_pass hd).1]
    exact hf
  · exact ndef_did h hst
  · by_cases hf : env.all cutsOnly
    · obtain ⟨o, t, hd, hf⟩ := reset_did (m := ctapSub true) (by rw [show ({ j'.adm with c := k'.cmd } : Admin.In).c.ins = 0x09 from h]; decide)
        (by unfold Admin.gated; simp only [h]; rfl) hf hst
      obtain ⟨c, h1, _, h2⟩ := did_ctap hd
      rw [hc.rnd] at h2
      exact ⟨c, by rw [h1] at hf; exact hf, fun _ => h2 cutsNo⟩
    · obtain ⟨o, t, hd, hf'⟩ := reset_did (m := ctapSub true) (by rw [show ({ j'.adm with c := k'.cmd } : Admin.In).c.ins = 0x09 from h]; decide)
        (by unfold Admin.gated; simp only [h]; rfl) (Admin.anyAll env) hst
      obtain ⟨c, h1, _, _⟩ := did_ctap hd
      exact ⟨c, by rw [h1] at hf'; exact hf', fun h => absurd h hf⟩

theorem factory_all {s : St} {op : Op} {env : Env} {j : In} {k : Call} (he : env.all A)
    (hs : Handed .admin (s, op, (step x s op env).2) j k) (ho : k.ans = some (.sw 0x9000)) (hi : k.cmd.ins = 0x50) :
    ResetAll (¬ A .fail) j.rnd s.flash (step x s op env).1.flash := by
  obtain ⟨j', k', r1, hc, hi', h9⟩ := saw_call (o := .reply (.sw 0x9000)) ⟨j, k, hs, rfl, by rw [ho]; rfl⟩
  have hk : j' = j ∧ k' = k := by
    obtain ⟨_, ⟨c, h1⟩, h2, _⟩ := hs
    obtain ⟨c', h3⟩ := hc.op
    cases h1.symm.trans h3
    exact ⟨rfl, Option.some.inj (hc.call.symm.trans h2)⟩
  obtain ⟨rfl, rfl⟩ := hk
  have hst := hc.step
  rw [ho] at hst
  obtain ⟨f', r', e, h1, h2, _, h3, _, h4, _, o1, t1, o2, t2, o3, t3, o4, t4, d1, d2, d3, d4, d5⟩ :=
    Admin.factory_did (admExt x) s.flash r1 { j'.adm with c := k'.cmd } env hi he (by rw [hst]; rfl)
  have e1 : (step x s op env).1.flash = f' := by
    rw [hst] at e
    exact congrArg Admin.St.flash e
  rw [e1]
  obtain ⟨p1, q1⟩ := did_pgp d1
  obtain ⟨⟨a, p2⟩, q2⟩ := did_piv d2
  obtain ⟨p3, q3⟩ := did_oath d3
  obtain ⟨c, p4, q4, p4'⟩ := did_ctap d4
  obtain ⟨p5, _⟩ := did_pass d5
  rw [q1, hc.rnd] at p2 q2
  rw [q2] at p3 q3
  rw [q3] at p4' q4
  refine ⟨a, c, ?_, p4'⟩
  obtain ⟨b1, b2, b3, b4, b5⟩ := f'
  dsimp only at h1 h2 h3 h4 p5
  subst h1 h2 h3 h4 p1 p2 p3 p4 p5
  rfl

/-- C95: a FACTORY RESET that was answered with 9000, at any time and under any faults, leaves on the card nothing but
the serial number: all applets are as on a new card.  For FIDO this needs that no storage operation failed without loss
of power. -/
theorem C95_factory_erases_partial (s : St) (op : Op) (env : Env) (j : In) (k : Call)
    (hs : Handed .admin (s, op, (step x s op env).2) j k) (ho : k.ans = some (.sw 0x9000)) (hi : k.cmd.ins = 0x50) :
    ResetAll (env.all cutsOnly) j.rnd s.flash (step x s op env).1.flash := by
  by_cases he : env.all cutsOnly
  · obtain ⟨a, c, h1, h2⟩ := factory_all he hs ho hi
    exact ⟨a, c, h1, fun _ => h2 (fun h => h rfl)⟩
  · obtain ⟨a, c, h1, h2⟩ := factory_all (Admin.anyAll env) hs ho hi
    exact ⟨a, c, h1, fun h => absurd h he⟩

end Verif.Card
