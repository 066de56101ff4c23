import Verif.Spec.Admin
import Verif.Lemmas.PinEff
import Verif.Lemmas.Ndef
/-
Effects of the admin commands.
-/
set_option linter.unusedSimpArgs false
namespace Verif.Admin
open Cmd Verif.Spec.Admin

variable {σ τ : Type} {A : Fault → Prop} {x : Ext σ τ} {i : In} {f : Flash σ} {r : Ram τ}

theorem wp_onOther {α : Type} {m : Sub σ τ α} {Q : α → Flash σ → Ram τ → Prop} {E : Reply → Flash σ → Ram τ → Prop}
    {X : Flash σ → Ram τ → Prop}
    (hQ : ∀ env a w, Env.all A env → m.val ⟨f.others, r.others, env⟩ = (some a, w) →
      Q a { f with others := w.flash } { r with others := w.ram })
    (hX : ∀ o t, X { f with others := o } { r with others := t }) :
    wp A (onOther m) Q E X f r := by
  unfold onOther
  apply wp_zoom
  apply wp_lift_any
  · intro env henv n
    obtain ⟨k, hk⟩ := m.property ⟨othF.get f, othR.get r, env⟩
    rw [hk]; exact henv _
  · intro env henv a w h; exact hQ env a w henv h
  · intro env henv w h; exact hX _ _

theorem wp_onPin {α : Type} {m : Pin.M α} {Q : α → Flash σ → Ram τ → Prop} {E : Reply → Flash σ → Ram τ → Prop}
    {X : Flash σ → Ram τ → Prop} {P : α → Pin.Flash → Pin.Ram → Prop} {Y : Pin.Flash → Pin.Ram → Prop}
    (h : wp A (Cmd.lift m : Cmd Pin.Flash Pin.Ram Reply α) P (fun _ _ _ => False) Y f.pin r.pin)
    (hQ : ∀ a p q, P a p q → Q a { f with pin := p } { r with pin := q })
    (hX : ∀ p q, Y p q → X { f with pin := p } { r with pin := q }) :
    wp A (onPin m) Q E X f r := by
  unfold onPin
  apply wp_zoom
  exact wp_mono h (fun a p q h => hQ a p q h) (fun _ _ _ h => h.elim) (fun p q h => hX p q h)

/-- What an installed applet set may look like on the way: nothing that the admin applet protects changed. -/
structure Kept (f : Flash σ) (r : Ram τ) (f' : Flash σ) (r' : Ram τ) : Prop where
  pin : f'.pin = f.pin
  sn : f'.sn = f.sn
  val : r'.pin = r.pin

theorem wp_any_ndef {α : Type} {m : Ndef.M α} {Q : α → Flash σ → Ram τ → Prop} {E : Reply → Flash σ → Ram τ → Prop}
    {X : Flash σ → Ram τ → Prop}
    (hm : ∀ (A : Fault → Prop) f r, wp A m (fun _ _ _ => True) (fun _ _ _ => True) (fun _ _ => True) f r)
    (hQ : ∀ a p q, Q a { f with ndef := p } { r with ndef := q })
    (hE : ∀ a p q, E a { f with ndef := p } { r with ndef := q })
    (hX : ∀ p q, X { f with ndef := p } { r with ndef := q }) :
    wp A (onNdef m) Q E X f r := by
  unfold onNdef
  apply wp_zoom
  exact wp_mono (hm A _ _) (fun a p q _ => hQ a p q) (fun a p q _ => hE a p q) (fun p q _ => hX p q)

theorem ndefInstall_any (b : Bool) (A : Fault → Prop) (f : Ndef.Flash) (r : Ndef.Ram) :
    wp A (Ndef.install b) (fun _ _ _ => True) (fun _ _ _ => True) (fun _ _ => True) f r := by
  unfold Ndef.install Ndef.createInit
  apply wp_bind; apply wp_mod
  have fresh : ∀ f r, wp A (do
      Cmd.mod fun r => { r with cc := Ndef.defaultCc }
      (do
        Cmd.wrOr (fun f => some { f with ndef := some Ndef.initMsg }) Ndef.ioErr
        Cmd.wrOr (fun f => some { f with ndef := some (Ndef.resize (f.ndef.getD []) Ndef.fileMax) }) Ndef.ioErr)
      let r ← Cmd.get
      Cmd.wrOr (fun f => some { f with cc := some r.cc }) Ndef.ioErr
      pure (.sw SW.ok) : Ndef.M Reply) (fun _ _ _ => True) (fun _ _ _ => True) (fun _ _ => True) f r := by
    intro f r
    apply wp_bind; apply wp_mod
    apply wp_bind; apply wp_bind
    apply wp_wrOr <;> intros <;> try trivial
    apply wp_wrOr <;> intros <;> try trivial
    apply wp_bind; apply wp_get
    apply wp_bind
    apply wp_wrOr <;> intros <;> try trivial
    exact wp_pure trivial
  have keep : ∀ f r, wp A (do
      let d ← Cmd.rdOr (fun f => f.cc) Ndef.ioErr
      Cmd.mod fun r => { r with cc := d.take 15 ++ r.cc.drop d.length }
      pure (.sw SW.ok) : Ndef.M Reply) (fun _ _ _ => True) (fun _ _ _ => True) (fun _ _ => True) f r := by
    intro f r
    apply wp_bind
    apply wp_rdOr <;> intros <;> try trivial
    apply wp_bind; apply wp_mod
    exact wp_pure trivial
  have tail : ∀ (b : Bool) f r, wp A (if b = true then _ else _ : Ndef.M Reply)
      (fun _ _ _ => True) (fun _ _ _ => True) (fun _ _ => True) f r := fun b f r =>
    wp_ite (fun _ => fresh f r) (fun _ => keep f r)
  apply wp_bind
  apply wp_ite
  · intro _; exact wp_pure (tail true _ _)
  · intro _
    apply wp_bind
    apply wp_rdF <;> intros <;> try trivial
    all_goals
      apply wp_ite
      · intro _; exact wp_pure (tail true _ _)
      · intro _
        apply wp_bind
        apply wp_rdF <;> intros <;> try trivial
        all_goals exact wp_pure (tail _ _ _)

theorem ndefToggle_any (c : Apdu.Capdu) (A : Fault → Prop) (f : Ndef.Flash) (r : Ndef.Ram) :
    wp A (Ndef.toggleReadOnly c) (fun _ _ _ => True) (fun _ _ _ => True) (fun _ _ => True) f r :=
  wp_mono Ndef.toggle_eff (fun _ _ _ _ => trivial) (fun _ _ _ _ => trivial) (fun _ _ _ => trivial)

theorem ndefProcess_any (j : Ndef.In) (A : Fault → Prop) (f : Ndef.Flash) (r : Ndef.Ram) :
    wp A (Ndef.process j) (fun _ _ _ => True) (fun _ _ _ => True) (fun _ _ => True) f r :=
  wp_mono Ndef.process_eff (fun _ _ _ _ => trivial) (fun _ _ _ _ => trivial) (fun _ _ _ => trivial)

theorem rightPin_of {c : Apdu.Capdu} {p : Pin.PinFile} {n : UInt8} (hp : f.pin = some p) (hc : p.ctr = some n)
    (hz : n ≠ 0) (hl : Pin.lenOk (pinCfg x) (UInt8.ofNat c.lc))
    (hm : Pin.candidate c.data (UInt8.ofNat c.lc) = p.data.take 64) : RightPin f c := by
  have e : (UInt8.ofNat c.lc).toNat = c.data.length % 256 := by simp [Apdu.Capdu.lc]
  have h1 := UInt8.le_iff_toNat_le.mp hl.1
  have h2 := UInt8.le_iff_toNat_le.mp hl.2
  rw [e] at h1 h2
  unfold Pin.candidate at hm
  rw [e] at hm
  exact ⟨p, n, hp, hc, hz, h1, h2, hm⟩

/-- The outcomes of VERIFY with data. -/
inductive VEff (A : Fault → Prop) (i : In) (f : Flash σ) (r : Ram τ) : Outcome Reply → Flash σ → Ram τ → Prop
  | bad (sw : SW) (h : sw ≠ SW.ok) (hsw : sw = SW.unable ∨ sw = SW.wrongLength ∨ sw = SW.blocked)
      (hio : sw = SW.unable → Pin.Io A f.pin) (hr : sw ≠ SW.unable → ¬ RightPin f i.c) :
      VEff A i f r (.done (.sw sw)) f { r with pin := ⟨false⟩ }
  | wrong (sw : SW) (h : sw ≠ SW.ok) (p : Pin.PinFile) (n : UInt8) (hp : f.pin = some p) (hc : p.ctr = some n)
      (hz : n ≠ 0) (hr : ¬ RightPin f i.c) :
      VEff A i f r (.done (.sw sw)) { f with pin := some { p with ctr := some (n - 1) } } { r with pin := ⟨false⟩ }
  | ok (p : Pin.PinFile) (d : UInt8) (hp : f.pin = some p) (hd : p.dflt = some d) (hr : RightPin f i.c) :
      VEff A i f r (.done (.sw SW.ok)) { f with pin := some { p with ctr := some d } } { r with pin := ⟨true⟩ }
  | okIo (hr : RightPin f i.c) (h : Pin.Io A f.pin) :
      VEff A i f r (.done ioErr) f { r with pin := ⟨true⟩ }
  | cut (q : Pin.Ram) (h : A .cut) : VEff A i f r .cut f { r with pin := q }

theorem ofNat_le (n : Nat) : (UInt8.ofNat n).toNat ≤ n := by simp; omega

theorem pinIsSet (p : Pin.Flash) (q : Pin.Ram) (hp : p = f.pin) (hq : q = r.pin) :
    ({ f with pin := p } : Flash σ) = f ∧ ({ r with pin := q } : Ram τ) = r := by
  subst hp; subst hq; exact ⟨rfl, rfl⟩

theorem verify_eff (hx : x.neq ≠ 0 ∧ x.neq ≠ 1) (hd : i.c.lc ≠ 0) (hp : i.c.p1 = 0 ∧ i.c.p2 = 0) :
    wp A (verify x i) (fun a => VEff A i f r (.done a)) (fun e => VEff A i f r (.done e)) (VEff A i f r .cut) f r := by
  unfold verify
  simp only [Cmd.throw_bind, hp.1, hp.2, bne_self_eq_false, Bool.or_self, Bool.false_eq_true, if_false,
    beq_iff_eq, hd]
  apply wp_bind
  refine wp_onPin (Pin.verify_wp (cfg := pinCfg x) hx (ofNat_le _)) ?_ ?_
  · intro a p q h
    cases h with
    | length h =>
      simp only [if_neg (by decide : ¬ Pin.Rc.lengthInvalid = Pin.Rc.ioFail), if_pos rfl]
      refine wp_throw (.bad _ (by decide) (.inr (.inl rfl)) (by intro h; cases h) fun _ => ?_)
      rintro ⟨p', n', -, -, -, h1, h2, -⟩
      have e : (UInt8.ofNat i.c.lc).toNat = i.c.data.length % 256 := by simp [Apdu.Capdu.lc]
      exact h ⟨UInt8.le_iff_toNat_le.2 (by rw [e]; exact h1), UInt8.le_iff_toNat_le.2 (by rw [e]; exact h2)⟩
    | io n h =>
      simp only [if_pos rfl]
      exact wp_throw (.bad _ (by decide) (.inl rfl) (fun _ => h) fun h => absurd rfl h)
    | blocked p hp hc =>
      simp only [if_neg (by decide : ¬ Pin.Rc.authFail = Pin.Rc.ioFail),
        if_neg (by decide : ¬ Pin.Rc.authFail = Pin.Rc.lengthInvalid), if_pos rfl]
      refine wp_throw (.bad _ (by decide) (.inr (.inr rfl)) (by intro h; cases h) fun _ => ?_)
      rintro ⟨p', n', hp', hc', hz', -⟩
      rw [hp] at hp'; cases hp'
      rw [hc] at hc'; cases hc'
      exact hz' rfl
    | wrong p n hp hc hz hl hm =>
      have hr : ¬ RightPin f i.c := by
        rintro ⟨p', n', hp', -, -, -, -, hm'⟩
        rw [hp] at hp'; cases hp'
        have e : (UInt8.ofNat i.c.lc).toNat = i.c.data.length % 256 := by simp [Apdu.Capdu.lc]
        unfold Pin.candidate at hm
        rw [e] at hm
        exact hm hm'
      simp only [if_neg (by decide : ¬ Pin.Rc.authFail = Pin.Rc.ioFail),
        if_neg (by decide : ¬ Pin.Rc.authFail = Pin.Rc.lengthInvalid)]
      apply wp_ite
      · intro _; exact wp_throw (.wrong _ (by decide) p n hp hc hz hr)
      · intro _
        exact wp_throw (.wrong _ (by intro h; have := (n-1).toNat_lt; have h : 0x63C0 + (n - 1).toNat = 0x9000 := h; omega)
          p n hp hc hz hr)
    | right p n d hp hc hz hl hm hd =>
      simp only [if_neg (by decide : ¬ Pin.Rc.ok = Pin.Rc.ioFail),
        if_neg (by decide : ¬ Pin.Rc.ok = Pin.Rc.lengthInvalid), if_neg hz,
        if_neg (by decide : ¬ Pin.Rc.ok = Pin.Rc.authFail)]
      exact wp_pure (.ok p d hp hd (rightPin_of hp hc hz hl hm))
    | rightIo p n hp hc hz hl hm h =>
      simp only [if_pos rfl]
      exact wp_throw (.okIo (rightPin_of hp hc hz hl hm) h)
  · rintro p q ⟨h1, rfl⟩; exact .cut q h1

theorem wp_sub {m : Sub σ τ Bool} {Q : Unit → Flash σ → Ram τ → Prop} {E : Reply → Flash σ → Ram τ → Prop}
    {X : Flash σ → Ram τ → Prop}
    (hQ : ∀ env w, Env.all A env → m.val ⟨f.others, r.others, env⟩ = (some true, w) →
      Q () { f with others := w.flash } { r with others := w.ram })
    (hE : (∃ w : World σ τ, (∀ n, A (w.env n)) ∧ (m.val w).1 ≠ some true) → ∀ o t,
      E ioErr { f with others := o } { r with others := t })
    (hX : (∃ w : World σ τ, (∀ n, A (w.env n)) ∧ (m.val w).1 ≠ some true) → ∀ o t,
      X { f with others := o } { r with others := t }) :
    wp A (sub m) Q E X f r := by
  unfold sub
  apply wp_bind
  unfold onOther
  apply wp_zoom
  apply wp_lift_any
  · intro env henv n
    obtain ⟨k, hk⟩ := m.property ⟨othF.get f, othR.get r, env⟩
    rw [hk]; exact henv _
  rotate_left
  · intro env henv w h
    exact hX ⟨⟨othF.get f, othR.get r, env⟩, henv, by rw [h]; intro h; cases h⟩ _ _
  intro env henv a w h
  cases a with
  | false => exact wp_throw (hE ⟨⟨othF.get f, othR.get r, env⟩, henv, by rw [h]; intro h; cases h⟩ _ _)
  | true => exact wp_pure (hQ env w henv h)

/-- The outcomes of a factory reset once it has begun. -/
inductive RunEff (A : Fault → Prop) (x : Ext σ τ) (f : Flash σ) (r : Ram τ) :
    Outcome Reply → Flash σ → Ram τ → Prop
  | part (o : Outcome Reply) (f' : Flash σ) (r' : Ram τ) (ho : o = .cut ∨ o = .done ioErr) (hs : f'.sn = f.sn)
      (hv : r'.pin.validated = true → r.pin.validated = true)
      (hw : A .fail ∨ A .cut ∨ ¬ ResetsWork A x) : RunEff A x f r o f' r'
  | done (f' : Flash σ) (r' : Ram τ) (hs : f'.sn = f.sn) (hp : f'.pin = some ⟨defaultPin, some 3, some 3⟩)
      (hc : f'.cfg = some defaultCfg) (hn : f'.ndef = ⟨some Ndef.defaultCc, some (Ndef.resize Ndef.initMsg 1024)⟩)
      (hrp : r'.pin = ⟨false⟩) (hrc : r'.cfg = defaultCfg) (hrn : r'.ndef = ⟨Ndef.defaultCc, .none⟩)
      (ho : ∃ o1 t1 o2 t2 o3 t3 o4 t4, Did A (x.pgp true) f.others r.others o1 t1 ∧
        Did A (x.piv true) o1 t1 o2 t2 ∧ Did A (x.oath true) o2 t2 o3 t3 ∧ Did A (x.ctap true) o3 t3 o4 t4 ∧
        Did A (x.pass true) o4 t4 f'.others r'.others) : RunEff A x f r (.done (.sw SW.ok)) f' r'

/-- Outcome of an NDEF reset under any faults. -/
theorem ndefReset_wp {g : Ndef.Flash} {q : Ndef.Ram} : wp A (Ndef.install true)
    (fun _ f' r' => f' = ⟨some Ndef.defaultCc, some (Ndef.resize Ndef.initMsg 1024)⟩ ∧ r' = ⟨Ndef.defaultCc, .none⟩)
    (fun e _ _ => e = ioErr ∧ A .fail) (fun _ _ => A .cut) g q := by
  unfold Ndef.install Ndef.createInit
  simp only [if_true, Cmd.pure_bind]
  apply wp_bind; apply wp_mod
  apply wp_bind; apply wp_mod
  apply wp_bind
  apply wp_bind; apply wp_wrOr <;> try (intro h; first | exact h | exact ⟨rfl, h⟩ | (cases h; done))
  intro f' hf; cases hf
  apply wp_wrOr <;> try (intro h; first | exact h | exact ⟨rfl, h⟩ | (cases h; done))
  intro f' hf; cases hf
  apply wp_bind; apply wp_get
  apply wp_bind; apply wp_wrOr <;> try (intro h; first | exact h | exact ⟨rfl, h⟩ | (cases h; done))
  intro f' hf; cases hf
  exact wp_pure ⟨rfl, rfl⟩

/-- Outcome of `admin_install(1)`. -/
theorem install_wp : wp A (install true : M σ τ Unit)
    (fun _ f' r' => f' = { f with cfg := some defaultCfg, pin := some ⟨defaultPin, some 3, some 3⟩ } ∧
      r' = { r with cfg := defaultCfg, pin := ⟨false⟩ })
    (fun e f' r' => e = ioErr ∧ f'.sn = f.sn ∧ r'.pin = ⟨false⟩ ∧ A .fail)
    (fun f' r' => f'.sn = f.sn ∧ r'.pin = ⟨false⟩ ∧ A .cut) f r := by
  unfold install
  simp only [if_true, Cmd.pure_bind]
  apply wp_bind; apply wp_mod
  apply wp_bind; apply wp_mod
  apply wp_bind; apply wp_wrOr
  · intro f' hf; cases hf
    apply wp_bind
    refine wp_onPin (Pin.create_wp (b := defaultPin) (n := 3)) ?_ ?_
    · rintro a p q ⟨h, rfl⟩
      cases h with
      | io f' h hf => exact wp_throw ⟨rfl, rfl, rfl, h⟩
      | done => exact wp_pure ⟨rfl, rfl⟩
    · rintro p q ⟨h, rfl, _⟩; exact ⟨rfl, rfl, h⟩
  · intro h; cases h
  · intro h; exact ⟨rfl, rfl, rfl, h⟩
  · intro h; exact ⟨rfl, rfl, h⟩

/-- The outcomes of FACTORY RESET. -/
inductive FacEff (A : Fault → Prop) (x : Ext σ τ) (i : In) (f : Flash σ) (r : Ram τ) :
    Outcome Reply → Flash σ → Ram τ → Prop
  | refuse (sw : SW) (h : sw ≠ SW.ok) (hw : i.c.p1 ≠ 0 ∨ i.c.data ≠ magic ∨ i.nfc = true ∨
      strongPresence i.polls = false ∨ ∃ n, Pin.RetEff A f.pin n ∧ n.getD 0 ≠ 0) :
      FacEff A x i f r (.done (.sw sw)) f r
  | cut (h : A .cut) : FacEff A x i f r .cut f r
  | run (hp : i.c.p1 = 0) (hd : i.c.data = magic) (hb : ∃ n, Pin.RetEff A f.pin n ∧ n.getD 0 = 0)
      (hn : i.nfc = false) (ht : strongPresence i.polls = true) (o : Outcome Reply) (f' : Flash σ) (r' : Ram τ)
      (h : RunEff A x f r o f' r') : FacEff A x i f r o f' r'

theorem factory_eff : wp A (factoryReset x i) (fun a => FacEff A x i f r (.done a))
    (fun e => FacEff A x i f r (.done e)) (FacEff A x i f r .cut) f r := by
  unfold factoryReset
  simp only [Cmd.throw_bind]
  apply wp_ite
  · intro h; exact wp_throw (.refuse _ (by decide) (.inl (by simpa using h)))
  intro h1
  apply wp_ite
  · intro h; exact wp_throw (.refuse _ (by decide) (.inr (.inl fun e => by rw [Apdu.Capdu.lc, e] at h; exact absurd h (by decide))))
  intro _
  apply wp_ite
  · intro h; exact wp_throw (.refuse _ (by decide) (.inr (.inl (by simpa using h))))
  intro h2
  apply wp_bind
  refine wp_onPin (Pin.getRetries_wp) ?_ ?_
  rotate_left
  · rintro p q ⟨h, rfl, rfl⟩; exact .cut h
  rintro n p q ⟨hr, rfl, rfl⟩
  apply wp_ite
  · intro h; exact wp_throw (.refuse _ (by decide) (.inr (.inr (.inr (.inr ⟨n, hr, by omega⟩)))))
  intro h3
  apply wp_ite
  · intro h; exact wp_throw (.refuse _ (by decide) (.inr (.inr (.inl h))))
  intro h4
  apply wp_ite
  · intro h; exact wp_throw (.refuse _ (by decide) (.inr (.inr (.inr (.inl (by simpa using h))))))
  intro h5
  have key : ∀ o f' r', RunEff A x f r o f' r' → FacEff A x i f r o f' r' := fun o f' r' h =>
    .run (by simpa using h1) (by simpa using h2) ⟨n, hr, by omega⟩ (by simpa using h4) (by simpa using h5) o f' r' h
  refine wp_mono (Q := fun a => RunEff A x f r (.done a)) (E := fun e => RunEff A x f r (.done e))
    (X := RunEff A x f r .cut) ?_ (fun _ _ _ => key _ _ _) (fun _ _ _ => key _ _ _) (fun _ _ => key _ _ _)
  have bad : ∀ {m : Sub σ τ Bool}, m ∈ [x.pgp true, x.piv true, x.oath true, x.ctap true, x.pass true] →
      (∃ w : World σ τ, (∀ n, A (w.env n)) ∧ (m.val w).1 ≠ some true) → A .fail ∨ A .cut ∨ ¬ ResetsWork A x :=
    fun {m} hm h => .inr (.inr fun hw => by obtain ⟨w, h1, h2⟩ := h; exact h2 (hw m hm w h1))
  apply wp_bind
  apply wp_sub
  rotate_left
  · intro hm o t; exact .part _ _ _  (.inr rfl) rfl id (bad (.head _) hm)
  · intro hm o t; exact .part _ _ _  (.inl rfl) rfl id (bad (.head _) hm)
  intro env1 w1 he1 hw1
  apply wp_bind
  apply wp_sub
  rotate_left
  · intro hm o t; exact .part _ _ _  (.inr rfl) rfl id (bad (.tail _ (.head _)) hm)
  · intro hm o t; exact .part _ _ _  (.inl rfl) rfl id (bad (.tail _ (.head _)) hm)
  intro env2 w2 he2 hw2
  apply wp_bind
  apply wp_sub
  rotate_left
  · intro hm o t; exact .part _ _ _  (.inr rfl) rfl id (bad (.tail _ (.tail _ (.head _))) hm)
  · intro hm o t; exact .part _ _ _  (.inl rfl) rfl id (bad (.tail _ (.tail _ (.head _))) hm)
  intro env3 w3 he3 hw3
  apply wp_bind
  apply wp_sub
  rotate_left
  · intro hm o t; exact .part _ _ _  (.inr rfl) rfl id (bad (.tail _ (.tail _ (.tail _ (.head _)))) hm)
  · intro hm o t; exact .part _ _ _  (.inl rfl) rfl id (bad (.tail _ (.tail _ (.tail _ (.head _)))) hm)
  intro env4 w4 he4 hw4
  apply wp_bind
  unfold onNdef
  apply wp_zoom
  refine wp_mono ndefReset_wp ?_ ?_ ?_
  rotate_left
  · rintro e p q ⟨rfl, h⟩; exact .part _ _ _ (.inr rfl) rfl id (.inl h)
  · intro p q h; exact .part _ _ _ (.inl rfl) rfl id (.inr (.inl h))
  rintro _ p q ⟨rfl, rfl⟩
  apply wp_bind
  apply wp_sub
  rotate_left
  · intro hm o t; exact .part _ _ _  (.inr rfl) rfl id (bad (.tail _ (.tail _ (.tail _ (.tail _ (.head _))))) hm)
  · intro hm o t; exact .part _ _ _  (.inl rfl) rfl id (bad (.tail _ (.tail _ (.tail _ (.tail _ (.head _))))) hm)
  intro env5 w5 he5 hw5
  apply wp_bind
  refine wp_mono install_wp ?_ ?_ ?_
  · rintro _ f' r' ⟨rfl, rfl⟩
    exact wp_pure (.done _ _ rfl rfl rfl rfl rfl rfl rfl
      ⟨w1.flash, w1.ram, w2.flash, w2.ram, w3.flash, w3.ram, w4.flash, w4.ram,
        ⟨env1, w1.env, he1, hw1⟩, ⟨env2, w2.env, he2, hw2⟩, ⟨env3, w3.env, he3, hw3⟩, ⟨env4, w4.env, he4, hw4⟩,
        ⟨env5, w5.env, he5, hw5⟩⟩)
  · rintro e f' r' ⟨rfl, hs, hr, h⟩
    exact .part _ _ _ (.inr rfl) hs (fun h => by rw [hr] at h; cases h) (.inl h)
  · rintro f' r' ⟨hs, hr, h⟩
    exact .part _ _ _ (.inl rfl) hs (fun h => by rw [hr] at h; cases h) (.inr (.inl h))

/-- The outcomes of CHANGE PIN. -/
inductive ChgEff (A : Fault → Prop) (i : In) (f : Flash σ) (r : Ram τ) : Outcome Reply → Flash σ → Ram τ → Prop
  | refuse (sw : SW) (h : sw = SW.wrongP1P2 ∨ sw = SW.wrongLength) : ChgEff A i f r (.done (.sw sw)) f r
  | io (h : Pin.Io A f.pin) (p : Pin.Flash) :
      ChgEff A i f r (.done ioErr) { f with pin := p } { r with pin := ⟨false⟩ }
  | cut (h : A .cut) (p : Pin.Flash) (q : Pin.Ram) : ChgEff A i f r .cut { f with pin := p } { r with pin := q }
  | done (p : Pin.PinFile) (d : UInt8) (hp : f.pin = some p) (hd : p.dflt = some d) :
      ChgEff A i f r (.done (.sw SW.ok))
        { f with pin := some { p with data := i.c.data.take (i.c.data.length % 256), ctr := some d } }
        { r with pin := ⟨false⟩ }

theorem change_eff : wp A (changePin x i.c) (fun a => ChgEff A i f r (.done a))
    (fun e => ChgEff A i f r (.done e)) (ChgEff A i f r .cut) f r := by
  unfold changePin
  simp only [Cmd.throw_bind]
  apply wp_ite
  · intro _; exact wp_throw (.refuse _ (.inl rfl))
  intro _
  apply wp_bind
  refine wp_onPin Pin.update_wp ?_ ?_
  · intro a p q h
    cases h with
    | length h => exact wp_throw (.refuse _ (.inr rfl))
    | io h => exact wp_throw (.io h _)
    | half hl h => exact wp_throw (.io h _)
    | done p d hp hd hl =>
      have e : (UInt8.ofNat i.c.lc).toNat = i.c.data.length % 256 := by simp [Apdu.Capdu.lc]
      rw [e]
      exact wp_pure (.done p d hp hd)
  · rintro p q ⟨h, _⟩; exact .cut h p q

/-- The outcomes of WRITE SN. -/
inductive SnEff (A : Fault → Prop) (i : In) (f : Flash σ) (r : Ram τ) : Outcome Reply → Flash σ → Ram τ → Prop
  | refuse (sw : SW) (h : sw ≠ SW.ok) : SnEff A i f r (.done (.sw sw)) f r
  | half (o : Outcome Reply) (ho : o = .cut ∨ o = .done ioErr) (hs : f.sn = none ∨ A .fail) (f' : Flash σ)
      (hf : f' = f ∨ f' = { f with sn := some (f.sn.getD []) }) : SnEff A i f r o f' r
  | cut (h : A .cut) : SnEff A i f r .cut f r
  | done (hs : f.sn = none ∨ A .fail) (hl : i.c.data.length = 4) :
      SnEff A i f r (.done (.sw SW.ok)) { f with sn := some i.c.data } r

theorem sn_eff : wp A (writeSn i.c) (fun a => SnEff A i f r (.done a))
    (fun e => SnEff A i f r (.done e)) (SnEff A i f r .cut) f r := by
  unfold writeSn
  simp only [Cmd.throw_bind]
  apply wp_ite
  · intro _; exact wp_throw (.refuse _ (by decide))
  intro _
  apply wp_ite
  · intro _; exact wp_throw (.refuse _ (by decide))
  intro hl
  have hl : i.c.data.length = 4 := by simpa [Apdu.Capdu.lc] using hl
  apply wp_bind
  have tail : (f.sn = none ∨ A .fail) → wp A (do
      Cmd.wrOr (fun f => some { f with sn := some (f.sn.getD []) }) ioErr
      Cmd.wrOr (fun f => some { f with sn := some i.c.data }) ioErr
      return .sw SW.ok : M σ τ Reply) (fun a => SnEff A i f r (.done a))
    (fun e => SnEff A i f r (.done e)) (SnEff A i f r .cut) f r := by
    intro hs
    apply wp_bind; apply wp_wrOr
    · intro f' hf; cases hf
      apply wp_bind; apply wp_wrOr
      · intro f' hf; cases hf
        exact wp_pure (.done hs hl)
      · intro h; cases h
      · intro h; exact .half _ (.inr rfl) hs _ (.inr rfl)
      · intro h; exact .half _ (.inl rfl) hs _ (.inr rfl)
    · intro h; cases h
    · intro h; exact .half _ (.inr rfl) hs _ (.inl rfl)
    · intro h; exact .half _ (.inl rfl) hs _ (.inl rfl)
  apply wp_rdF
  · intro _
    cases hs : f.sn with
    | none => exact tail (.inl hs)
    | some d => exact wp_throw (.refuse _ (by decide))
  · intro h; exact tail (.inr h)
  · exact .cut

/-- The outcomes of all admin commands. -/
inductive Eff (A : Fault → Prop) (x : Ext σ τ) (i : In) (f : Flash σ) (r : Ram τ) :
    Outcome Reply → Flash σ → Ram τ → Prop
  /-- nothing changes -/
  | same (o : Outcome Reply) (h : ¬ (i.c.ins = 0x20 ∧ i.c.p1 = 0 ∧ i.c.p2 = 0 ∧ i.c.data ≠ []))
      (h0 : i.c.ins = 0x21 ∨ i.c.ins = 0x30 ∨ i.c.ins = 0x50 → o ≠ .done (.sw SW.ok))
      (h1 : i.c.ins = 0x21 → o = .cut ∨ o = .done (.sw SW.wrongP1P2) ∨ o = .done (.sw SW.security))
      (h2 : i.c.ins = 0x32 → i.c.p1 = 0 → i.c.p2 = 0 → 4 ≤ i.c.le →
        o = .cut ∧ A .cut ∨ ∃ d, o = .done (.resp d SW.ok) ∧ (A .fail ∨ ∀ s, f.sn = some s → s.length = 4 → d = s)) :
      Eff A x i f r o f r
  | verify (o : Outcome Reply) (f' : Flash σ) (r' : Ram τ) (hi : i.c.ins = 0x20 ∧ i.c.p1 = 0 ∧ i.c.p2 = 0 ∧ i.c.data ≠ [])
      (h : VEff A i f r o f' r') : Eff A x i f r o f' r'
  | change (o : Outcome Reply) (f' : Flash σ) (r' : Ram τ) (hi : i.c.ins = 0x21) (hv : r.pin.validated = true)
      (h : ChgEff A i f r o f' r') : Eff A x i f r o f' r'
  | sn (o : Outcome Reply) (f' : Flash σ) (r' : Ram τ) (hi : i.c.ins = 0x30) (hv : r.pin.validated = true)
      (h : SnEff A i f r o f' r') : Eff A x i f r o f' r'
  | factory (o : Outcome Reply) (f' : Flash σ) (r' : Ram τ) (hi : i.c.ins = 0x50)
      (h : FacEff A x i f r o f' r') : Eff A x i f r o f' r'
  | other (o : Outcome Reply) (f' : Flash σ) (r' : Ram τ)
      (hi : i.c.ins ≠ 0x20 ∧ i.c.ins ≠ 0x21 ∧ i.c.ins ≠ 0x30 ∧ i.c.ins ≠ 0x50 ∧ i.c.ins ≠ 0x32)
      (hv : r.pin.validated = true) (h : Kept f r f' r') : Eff A x i f r o f' r'

theorem fillSn_wp : wp A (fillSn : M σ τ Bytes)
    (fun d f' r' => f' = f ∧ r' = r ∧ (A .fail ∨ ∀ s, f.sn = some s → s.length = 4 → d = s)) (fun _ _ _ => False)
    (fun f' r' => A .cut ∧ f' = f ∧ r' = r) f r := by
  unfold fillSn
  apply wp_bind; apply wp_rdF
  · intro _
    cases hs : f.sn with
    | none => exact wp_pure ⟨rfl, rfl, .inr fun s h => by cases h⟩
    | some d =>
      refine wp_pure ⟨rfl, rfl, .inr fun s h hl => ?_⟩
      cases h
      have : List.take 4 d = d := List.take_of_length_le (by omega)
      show (if ((List.take 4 d).length != 4) = true then [0, 0, 0, 0] else List.take 4 d) = d
      rw [this]; simp [hl]
  · intro h; exact wp_pure ⟨rfl, rfl, .inl h⟩
  · intro h; exact ⟨h, rfl, rfl⟩

theorem gated_eff (hv : r.pin.validated = true)
    (hi : i.c.ins ≠ 0xA4 ∧ i.c.ins ≠ 0x31 ∧ i.c.ins ≠ 0x32 ∧ i.c.ins ≠ 0x14 ∧ i.c.ins ≠ 0x50 ∧ i.c.ins ≠ 0x20) :
    wp A (gated x i) (fun a => Eff A x i f r (.done a)) (fun e => Eff A x i f r (.done e)) (Eff A x i f r .cut) f r := by
  have oth : ∀ m : Sub σ τ Bool, i.c.ins ≠ 0x21 → i.c.ins ≠ 0x30 → wp A (resetOther m) (fun a => Eff A x i f r (.done a))
      (fun e => Eff A x i f r (.done e)) (Eff A x i f r .cut) f r := by
    intro m h1 h2
    unfold resetOther
    apply wp_bind
    apply wp_sub
    · intro env w _ _; exact wp_pure (.other _ _ _ ⟨hi.2.2.2.2.2, h1, h2, hi.2.2.2.2.1, hi.2.2.1⟩ hv ⟨rfl, rfl, rfl⟩)
    · intro _ o t; exact .other _ _ _ ⟨hi.2.2.2.2.2, h1, h2, hi.2.2.2.2.1, hi.2.2.1⟩ hv ⟨rfl, rfl, rfl⟩
    · intro _ o t; exact .other _ _ _ ⟨hi.2.2.2.2.2, h1, h2, hi.2.2.2.2.1, hi.2.2.1⟩ hv ⟨rfl, rfl, rfl⟩
  have kept : ∀ o f' r', i.c.ins ≠ 0x21 → i.c.ins ≠ 0x30 → Kept f r f' r' → Eff A x i f r o f' r' :=
    fun o f' r' h1 h2 h => .other o f' r' ⟨hi.2.2.2.2.2, h1, h2, hi.2.2.2.2.1, hi.2.2.1⟩ hv h
  unfold gated
  simp only [Cmd.throw_bind, Bool.or_eq_true, beq_iff_eq]
  apply wp_ite
  · intro h
    have h1 : i.c.ins ≠ 0x21 := by rintro e; rw [e] at h; revert h; decide
    have h2 : i.c.ins ≠ 0x30 := by rintro e; rw [e] at h; revert h; decide
    apply wp_onOther
    · intro env a w _ _; exact kept _ _ _ h1 h2 ⟨rfl, rfl, rfl⟩
    · intro o t; exact kept _ _ _ h1 h2 ⟨rfl, rfl, rfl⟩
  intro _
  apply wp_ite
  · intro h; exact oth _ (by rw [h]; decide) (by rw [h]; decide)
  intro _
  apply wp_ite
  · intro h; exact oth _ (by rw [h]; decide) (by rw [h]; decide)
  intro _
  apply wp_ite
  · intro h; exact oth _ (by rw [h]; decide) (by rw [h]; decide)
  intro _
  apply wp_ite
  · intro h
    have h1 : i.c.ins ≠ 0x21 := by rw [h]; decide
    have h2 : i.c.ins ≠ 0x30 := by rw [h]; decide
    refine wp_any_ndef (ndefInstall_any _) ?_ ?_ ?_
    · intro a p q; exact kept _ _ _ h1 h2 ⟨rfl, rfl, rfl⟩
    · intro a p q; exact kept _ _ _ h1 h2 ⟨rfl, rfl, rfl⟩
    · intro p q; exact kept _ _ _ h1 h2 ⟨rfl, rfl, rfl⟩
  intro _
  apply wp_ite
  · intro h
    have h1 : i.c.ins ≠ 0x21 := by rw [h]; decide
    have h2 : i.c.ins ≠ 0x30 := by rw [h]; decide
    refine wp_any_ndef (ndefToggle_any _) ?_ ?_ ?_
    · intro a p q; exact kept _ _ _ h1 h2 ⟨rfl, rfl, rfl⟩
    · intro a p q; exact kept _ _ _ h1 h2 ⟨rfl, rfl, rfl⟩
    · intro p q; exact kept _ _ _ h1 h2 ⟨rfl, rfl, rfl⟩
  intro _
  apply wp_ite
  · intro h; exact oth _ (by rw [h]; decide) (by rw [h]; decide)
  intro _
  apply wp_ite
  · intro h; exact oth _ (by rw [h]; decide) (by rw [h]; decide)
  intro _
  apply wp_ite
  · intro h
    exact wp_mono change_eff (fun _ _ _ e => .change _ _ _ h hv e) (fun _ _ _ e => .change _ _ _ h hv e)
      (fun _ _ e => .change _ _ _ h hv e)
  intro h21
  apply wp_ite
  · intro h
    exact wp_mono sn_eff (fun _ _ _ e => .sn _ _ _ h hv e) (fun _ _ _ e => .sn _ _ _ h hv e)
      (fun _ _ e => .sn _ _ _ h hv e)
  intro h30
  apply wp_ite
  · intro h
    unfold config
    simp only [Cmd.throw_bind]
    have tail : ∀ r' : Ram τ, r'.pin = r.pin → wp A (do
        let r ← Cmd.get
        Cmd.wrOr (fun f => some { f with cfg := some r.cfg }) ioErr
        return .sw SW.ok : M σ τ Reply) (fun a => Eff A x i f r (.done a)) (fun e => Eff A x i f r (.done e))
        (Eff A x i f r .cut) f r' := by
      intro r' hr
      apply wp_bind; apply wp_get
      apply wp_bind; apply wp_wrOr
      · intro f' hf; cases hf; exact wp_pure (kept _ _ _ h21 h30 ⟨rfl, rfl, hr⟩)
      · intro h; cases h
      · intro _; exact kept _ _ _ h21 h30 ⟨rfl, rfl, hr⟩
      · intro _; exact kept _ _ _ h21 h30 ⟨rfl, rfl, hr⟩
    apply wp_ite
    · intro _; apply wp_bind; apply wp_mod; exact tail _ rfl
    intro _
    apply wp_ite
    · intro _; apply wp_bind; apply wp_mod; exact tail _ rfl
    intro _
    apply wp_ite
    · intro _; apply wp_bind; apply wp_mod; exact tail _ rfl
    intro _
    exact wp_throw (kept _ _ _ h21 h30 ⟨rfl, rfl, rfl⟩)
  intro _
  apply wp_ite
  · intro h
    unfold flashUsage
    simp only [Cmd.throw_bind]
    apply wp_ite
    · intro _; exact wp_throw (kept _ _ _ h21 h30 ⟨rfl, rfl, rfl⟩)
    intro _
    apply wp_ite
    · intro _; exact wp_throw (kept _ _ _ h21 h30 ⟨rfl, rfl, rfl⟩)
    intro _
    exact wp_pure (kept _ _ _ h21 h30 ⟨rfl, rfl, rfl⟩)
  intro _
  apply wp_ite
  · intro h
    unfold readConfig
    simp only [Cmd.throw_bind]
    apply wp_ite
    · intro _; exact wp_throw (kept _ _ _ h21 h30 ⟨rfl, rfl, rfl⟩)
    intro _
    apply wp_ite
    · intro _; exact wp_throw (kept _ _ _ h21 h30 ⟨rfl, rfl, rfl⟩)
    intro _
    apply wp_bind; apply wp_get
    exact wp_pure (kept _ _ _ h21 h30 ⟨rfl, rfl, rfl⟩)
  intro _
  apply wp_ite
  · intro _; exact wp_pure (kept _ _ _ h21 h30 ⟨rfl, rfl, rfl⟩)
  intro _
  exact wp_throw (kept _ _ _ h21 h30 ⟨rfl, rfl, rfl⟩)

theorem process_eff (hx : x.neq ≠ 0 ∧ x.neq ≠ 1) : wp A (process x i) (fun a => Eff A x i f r (.done a))
    (fun e => Eff A x i f r (.done e)) (Eff A x i f r .cut) f r := by
  have same : ∀ o, i.c.ins ≠ 0x20 → i.c.ins ≠ 0x21 → i.c.ins ≠ 0x30 → i.c.ins ≠ 0x50 → i.c.ins ≠ 0x32 →
      Eff A x i f r o f r := fun o h1 h2 h3 h4 h5 =>
    .same o (fun h => h1 h.1) (fun h => by rcases h with h | h | h <;> contradiction) (fun h => absurd h h2)
      (fun h => absurd h h5)
  unfold process
  simp only [Cmd.throw_bind, Cmd.pure_bind, beq_iff_eq]
  apply wp_ite
  · intro h
    have hs : ∀ o, Eff A x i f r o f r := fun o =>
      same o (by rw [h]; decide) (by rw [h]; decide) (by rw [h]; decide) (by rw [h]; decide) (by rw [h]; decide)
    apply wp_ite
    · intro _; exact wp_throw (hs _)
    · intro _; exact wp_pure (hs _)
  intro hA4
  apply wp_ite
  · intro h
    have hs : ∀ o, Eff A x i f r o f r := fun o =>
      same o (by rw [h]; decide) (by rw [h]; decide) (by rw [h]; decide) (by rw [h]; decide) (by rw [h]; decide)
    apply wp_ite
    · intro _; exact wp_throw (hs _)
    · intro _; exact wp_pure (hs _)
  intro h31
  apply wp_ite
  · intro h
    have hs : ∀ o, (i.c.p1 = 0 → i.c.p2 = 0 → 4 ≤ i.c.le →
        o = .cut ∧ A .cut ∨ ∃ d, o = .done (.resp d SW.ok) ∧ (A .fail ∨ ∀ s, f.sn = some s → s.length = 4 → d = s)) →
        Eff A x i f r o f r := fun o h2 =>
      .same o (fun h' => by rw [h] at h'; exact absurd h'.1 (by decide))
        (fun h' => by rw [h] at h'; exact absurd h' (by decide))
        (fun h' => by rw [h] at h'; exact absurd h' (by decide)) (fun _ => h2)
    apply wp_ite
    · intro hp
      refine wp_throw (hs _ fun h1 h2 => ?_)
      rw [h1, h2] at hp; exact absurd hp (by decide)
    intro _
    apply wp_ite
    · intro h0
      unfold readSn
      simp only [Cmd.throw_bind]
      apply wp_ite
      · intro hp
        refine wp_throw (hs _ fun h1 h2 => ?_)
        rw [h1, h2] at hp; exact absurd hp (by decide)
      intro _
      apply wp_ite
      · intro hl
        exact wp_throw (hs _ fun _ _ h => by omega)
      intro _
      apply wp_bind
      refine wp_mono fillSn_wp ?_ (fun _ _ _ h => h.elim) ?_
      · rintro d f' r' ⟨rfl, rfl, hd⟩
        exact wp_pure (hs _ fun _ _ _ => .inr ⟨d, rfl, hd⟩)
      · rintro f' r' ⟨hc, rfl, rfl⟩
        exact hs _ fun _ _ _ => .inl ⟨rfl, hc⟩
    · intro h0
      exact wp_pure (hs _ fun h1 => absurd h1 h0)
  intro h32
  apply wp_ite
  · intro h
    exact wp_pure (same _ (by rw [h]; decide) (by rw [h]; decide) (by rw [h]; decide) (by rw [h]; decide) (by rw [h]; decide))
  intro h14
  apply wp_ite
  · intro h
    exact wp_mono factory_eff (fun _ _ _ e => .factory _ _ _ h e) (fun _ _ _ e => .factory _ _ _ h e)
      (fun _ _ e => .factory _ _ _ h e)
  intro h50
  apply wp_ite
  · intro h
    have hs : ∀ o, ¬ (i.c.p1 = 0 ∧ i.c.p2 = 0 ∧ i.c.data ≠ []) → Eff A x i f r o f r := fun o h2 =>
      .same o (fun h' => h2 h'.2) (fun h' => by rw [h] at h'; exact absurd h' (by decide))
        (fun h' => by rw [h] at h'; exact absurd h' (by decide)) (fun h' => absurd h' h32)
    by_cases hp : i.c.p1 = 0 ∧ i.c.p2 = 0
    · by_cases hl : i.c.lc = 0
      · have hnil : i.c.data = [] := List.length_eq_zero_iff.mp hl
        have hs' : ∀ o, Eff A x i f r o f r := fun o => hs o fun h => h.2.2 hnil
        unfold verify
        simp only [Cmd.throw_bind, hp.1, hp.2, bne_self_eq_false, Bool.or_self, Bool.false_eq_true, if_false,
          beq_iff_eq, hl, if_true]
        apply wp_bind; apply wp_get
        apply wp_ite
        · intro _; exact wp_pure (hs' _)
        · intro _
          apply wp_bind
          refine wp_onPin Pin.getRetries_wp ?_ ?_
          · rintro n p q ⟨_, rfl, rfl⟩
            cases n with
            | none => exact wp_throw (hs' _)
            | some n => exact wp_throw (hs' _)
          · rintro p q ⟨_, rfl, rfl⟩; exact hs' _
      · have hd : i.c.data ≠ [] := fun h => hl (by simp [Apdu.Capdu.lc, h])
        exact wp_mono (verify_eff hx hl hp) (fun _ _ _ e => .verify _ _ _ ⟨h, hp.1, hp.2, hd⟩ e)
          (fun _ _ _ e => .verify _ _ _ ⟨h, hp.1, hp.2, hd⟩ e) (fun _ _ e => .verify _ _ _ ⟨h, hp.1, hp.2, hd⟩ e)
    · unfold verify
      simp only [Cmd.throw_bind]
      rw [if_pos (by simp only [bne_iff_ne, ne_eq, Bool.or_eq_true]; exact Decidable.not_and_iff_or_not.mp hp)]
      exact wp_throw (hs _ fun h => hp ⟨h.1, h.2.1⟩)
  intro h20
  apply wp_bind; apply wp_get
  apply wp_ite
  · intro hv
    refine wp_throw (.same _ (fun h => h20 h.1) ?_ ?_ (fun h => absurd h h32))
    · intro _ h; cases h
    · intro _; exact .inr (.inr rfl)
  · intro hv
    exact gated_eff (by simpa using hv) ⟨hA4, h31, h32, h14, h50, h20⟩

/-! ### Boot -/

theorem wp_run {φ ρ α : Type} {m : Cmd φ ρ Reply α} {R : φ → ρ → Prop} {E : Reply → φ → ρ → Prop} {X : φ → ρ → Prop}
    {f : φ} {r : ρ} (h : wp A m (fun _ => R) (fun _ => R) X f r) :
    wp A (Cmd.lift m.run : Cmd φ ρ Reply _) (fun _ => R) E X f r := by
  intro env henv
  have h1 := h env henv
  rw [Cmd.lift_run]
  cases hm : m.run ⟨f, r, env⟩ with
  | mk o w =>
    rw [hm] at h1
    cases o with
    | none => exact h1
    | some a => cases a <;> exact h1

theorem installBoot_wp : wp A (install false : M σ τ Unit)
    (fun _ f' r' => f'.sn = f.sn ∧ r'.pin = ⟨false⟩) (fun _ f' r' => f'.sn = f.sn ∧ r'.pin = ⟨false⟩)
    (fun f' _ => f'.sn = f.sn) f r := by
  have pinTail : ∀ (b : Bool) (f' : Flash σ) (r' : Ram τ), f'.sn = f.sn → r'.pin = ⟨false⟩ → wp A (if b = true then (do
      let rc ← onPin (Pin.create defaultPin 3)
      if rc != .ok then throw ioErr) else pure () : M σ τ Unit)
      (fun _ f' r' => f'.sn = f.sn ∧ r'.pin = ⟨false⟩) (fun _ f' r' => f'.sn = f.sn ∧ r'.pin = ⟨false⟩)
      (fun f' _ => f'.sn = f.sn) f' r' := by
    intro b f' r' h1 h2
    apply wp_ite
    · intro _
      apply wp_bind
      refine wp_onPin (Pin.create_wp (b := defaultPin) (n := 3)) ?_ ?_
      · rintro a p q ⟨_, rfl⟩
        apply wp_ite
        · intro _; exact wp_throw ⟨h1, h2⟩
        · intro _; exact wp_pure ⟨h1, h2⟩
      · rintro p q _; exact h1
    · intro _; exact wp_pure ⟨h1, h2⟩
  have pinPart : ∀ (f' : Flash σ) (r' : Ram τ), f'.sn = f.sn → r'.pin = ⟨false⟩ → wp A (do
      let noPin ← (do
        let a ← Cmd.rdF fun f => f.pin
        pure a.isNone)
      if noPin = true then (do
        let rc ← onPin (Pin.create defaultPin 3)
        if rc != .ok then throw ioErr) else pure () : M σ τ Unit)
      (fun _ f' r' => f'.sn = f.sn ∧ r'.pin = ⟨false⟩) (fun _ f' r' => f'.sn = f.sn ∧ r'.pin = ⟨false⟩)
      (fun f' _ => f'.sn = f.sn) f' r' := by
    intro f' r' h1 h2
    apply wp_bind; apply wp_bind; apply wp_rdF
    · intro _; exact wp_pure (pinTail _ _ _ h1 h2)
    · intro _; exact wp_pure (pinTail _ _ _ h1 h2)
    · intro _; exact h1
  unfold install
  simp only [Bool.false_eq_true, if_false]
  apply wp_bind; apply wp_mod
  have cfgPart : ∀ (b : Bool), wp A (if b = true then (do
      Cmd.mod fun r => { r with cfg := defaultCfg }
      Cmd.wrOr (fun f => some { f with cfg := some defaultCfg }) ioErr
      let noPin ← (do
        let a ← Cmd.rdF fun f => f.pin
        pure a.isNone)
      if noPin = true then (do
        let rc ← onPin (Pin.create defaultPin 3)
        if rc != .ok then throw ioErr) else pure ()) else (do
      let c ← Cmd.rdOr (fun f => f.cfg) ioErr
      Cmd.mod fun r => { r with cfg := c }
      let noPin ← (do
        let a ← Cmd.rdF fun f => f.pin
        pure a.isNone)
      if noPin = true then (do
        let rc ← onPin (Pin.create defaultPin 3)
        if rc != .ok then throw ioErr) else pure ()) : M σ τ Unit)
      (fun _ f' r' => f'.sn = f.sn ∧ r'.pin = ⟨false⟩) (fun _ f' r' => f'.sn = f.sn ∧ r'.pin = ⟨false⟩)
      (fun f' _ => f'.sn = f.sn) f (poweroff r) := by
    intro b
    apply wp_ite
    · intro _
      apply wp_bind; apply wp_mod
      apply wp_bind; apply wp_wrOr
      · intro f' hf; cases hf; exact pinPart _ _ rfl rfl
      · intro h; cases h
      · intro _; exact ⟨rfl, rfl⟩
      · intro _; exact rfl
    · intro _
      apply wp_bind; apply wp_rdOr
      · intro c _
        apply wp_bind; apply wp_mod
        exact pinPart _ _ rfl rfl
      · intro _; exact ⟨rfl, rfl⟩
      · intro _; exact ⟨rfl, rfl⟩
      · intro _; exact rfl
  apply wp_bind; apply wp_bind; apply wp_rdF
  · intro _; exact wp_pure (cfgPart _)
  · intro _; exact wp_pure (cfgPart _)
  · intro _; exact rfl

theorem boot_wp : wp A (Cmd.lift (boot x) : M σ τ Unit)
    (fun _ f' r' => f'.sn = f.sn ∧ r'.pin = ⟨false⟩) (fun _ _ _ => False) (fun f' _ => f'.sn = f.sn) f r := by
  unfold boot
  simp only [lift_bind, lift_pure]
  have oth : ∀ {α : Type} (m : Sub σ τ α) (f' : Flash σ) (r' : Ram τ) {E : Reply → Flash σ → Ram τ → Prop},
      wp A (Cmd.lift (onOther m : M σ τ α).run : M σ τ _)
      (fun _ f'' r'' => f''.sn = f'.sn ∧ r''.pin = r'.pin) E (fun f'' _ => f''.sn = f'.sn) f' r' := by
    intro α m f' r' E
    apply wp_run
    apply wp_onOther
    · intro env a w _ _; exact ⟨rfl, rfl⟩
    · intro o t; exact rfl
  apply wp_bind
  refine wp_mono (oth _ f r) ?_ (fun _ _ _ h => h) (fun _ _ h => h)
  rintro _ f1 r1 ⟨h1, -⟩
  apply wp_bind
  refine wp_mono (oth _ f1 r1) ?_ (fun _ _ _ h => h) (fun _ _ h => h.trans h1)
  rintro _ f2 r2 ⟨h2, -⟩
  apply wp_bind
  refine wp_mono (oth _ f2 r2) ?_ (fun _ _ _ h => h) (fun _ _ h => h.trans (h2.trans h1))
  rintro _ f3 r3 ⟨h3, -⟩
  have e3 := h3.trans (h2.trans h1)
  apply wp_bind
  refine wp_mono (oth _ f3 r3) ?_ (fun _ _ _ h => h) (fun _ _ h => h.trans e3)
  rintro _ f4 r4 ⟨h4, -⟩
  have e4 := h4.trans e3
  apply wp_bind
  refine wp_mono (wp_run (installBoot_wp (f := f4) (r := r4))) ?_ (fun _ _ _ h => h) (fun _ _ h => h.trans e4)
  rintro _ f5 r5 ⟨h5, hp5⟩
  have e5 := h5.trans e4
  apply wp_bind
  refine wp_run (wp_any_ndef (ndefInstall_any _) ?_ ?_ ?_)
  · intro a p q
    apply wp_bind
    refine wp_mono (oth _ _ _) ?_ (fun _ _ _ h => h) (fun _ _ h => h.trans e5)
    rintro _ f7 r7 ⟨h7, hp7⟩
    exact wp_pure ⟨h7.trans e5, hp7.trans hp5⟩
  · intro a p q
    apply wp_bind
    refine wp_mono (oth _ _ _) ?_ (fun _ _ _ h => h) (fun _ _ h => h.trans e5)
    rintro _ f7 r7 ⟨h7, hp7⟩
    exact wp_pure ⟨h7.trans e5, hp7.trans hp5⟩
  · intro p q; exact e5

end Verif.Admin
