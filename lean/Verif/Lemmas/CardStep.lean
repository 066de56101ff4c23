import Verif.Lemmas.CardAdmin
/-
Every operation of the card is a sequence of operations of its applets.
-/
namespace Verif.Card
open Apdu (Capdu Rapdu Applet Chain PivState)
open Spec.Card

variable {x : Ext}

/-! ### Boot -/

inductive Who where
  | power | pgp | piv | oath | ctap | ndef | adm
  deriving DecidableEq

/-- The applet of an event. -/
def Ev.who : Ev → Who
  | .power _ _ => .power
  | .pgp _ _ _ => .pgp
  | .piv _ _ _ => .piv
  | .oath _ _ _ => .oath
  | .ctap _ _ _ => .ctap
  | .ndef _ _ _ => .ndef
  | .adm => .adm

/-- The admin applet works on its own data. -/
def OnlyAdm (e : Ev) : Prop := e = .adm

/-- The applets of events, without the admin applet. -/
def whos (es : List Ev) : List Who := (es.map Ev.who).filter (· ≠ .adm)

theorem whos_append (es es' : List Ev) : whos (es ++ es') = whos es ++ whos es' := by
  unfold whos
  rw [List.map_append, List.filter_append]

/-- As `TrM`; the applets in `L` have their turn, in this order, unless power is cut. -/
def TrB {α : Type} (x : Ext) (Pre : Ram → Prop) (m : FsM Flash Ram α) (L : List Who) (Post : Ram → Prop) : Prop :=
  ∀ w : World Flash Ram, Pre w.ram → Sh w.env (m w).2.env ∧ ((m w).1 ≠ none → Post (m w).2.ram) ∧
    ∃ es, (∀ e ∈ es, BootEv e ∧ e.Uses w.env) ∧ Trace x (w.flash, some w.ram) es (jOf (m w)) ∧
      whos es <+: L ∧ ((m w).1 ≠ none → whos es = L)

namespace TrB
variable {α β : Type} {Pre Mid Post : Ram → Prop}

theorem bind {m : FsM Flash Ram α} {g : α → FsM Flash Ram β} {L L' : List Who} (h : TrB x Pre m L Mid)
    (h' : ∀ a, TrB x Mid (g a) L' Post) : TrB x Pre (m >>= g) (L ++ L') Post := by
  intro w hw
  obtain ⟨h1, h2, es, h3, h4, h5, h6⟩ := h w hw
  rw [FsM.bind_eq]
  cases hm : m w with
  | mk o w' =>
    rw [hm] at h1 h2 h4 h6
    cases o with
    | none =>
      exact ⟨h1, (fun h => absurd rfl h), es, h3, h4, h5.trans (List.prefix_append _ _), (fun h => absurd rfl h)⟩
    | some a =>
      obtain ⟨g1, g2, es', g3, g4, g5, g6⟩ := h' a w' (h2 (by intro h; cases h))
      have h6 := h6 (by intro h; cases h)
      refine ⟨h1.trans g1, g2, es ++ es', fun e he => (List.mem_append.mp he).elim (h3 e)
        (fun he => ⟨(g3 e he).1, (g3 e he).2.trans h1⟩), h4.append g4, ?_, fun hn => ?_⟩
      · rw [whos_append, h6]; exact (List.prefix_append_right_inj _).mpr g5
      · rw [whos_append, h6, g6 hn]

theorem of {m : FsM Flash Ram α} (h : TrM x OnlyAdm Pre m Post) : TrB x Pre m [] Post := by
  intro w hw
  obtain ⟨h1, h2, es, h3, h4⟩ := h w hw
  have : whos es = [] := by
    unfold whos
    rw [List.filter_eq_nil_iff]
    intro t ht
    obtain ⟨e, he, rfl⟩ := List.mem_map.mp ht
    rw [(h3 e he).1]
    decide
  exact ⟨h1, h2, es, fun e he => ⟨by rw [(h3 e he).1]; trivial, (h3 e he).2⟩, h4, by rw [this]; exact List.nil_prefix,
    fun _ => this⟩

theorem other {m : Admin.Sub Fl Rm α} {L : List Who} (h : TrB x Pre (FsM.zoom Admin.othF Admin.othR m.val) L Post) :
    TrB x Pre (Admin.onOther m : Admin.M Fl Rm α).run L Post := by
  have e : (Admin.onOther m : Admin.M Fl Rm α).run =
      (FsM.zoom Admin.othF Admin.othR m.val >>= fun a => Pure.pure (Except.ok a)) := by
    funext w
    rw [FsM.bind_eq]
    show FsM.zoom Admin.othF Admin.othR (Cmd.lift m.val : Cmd Fl Rm Reply α).run w = _
    unfold FsM.zoom
    rw [Cmd.lift_run]
    generalize m.val _ = v
    rcases v with ⟨_ | _, _⟩ <;> rfl
  rw [e, ← List.append_nil L]
  exact bind h fun a => of (TrM.pure fun _ h => h)

theorem dep {m : β → FsM Flash Ram α} {g : Ram → β} {L : List Who}
    (h : ∀ b, TrB x (fun r => Pre r ∧ g r = b) (m b) L Post) : TrB x Pre (fun w => m (g w.ram) w) L Post :=
  fun w hw => h (g w.ram) w ⟨hw, rfl⟩

theorem onPgp {op : Pgp.Op} {m : FsM Pgp.Flash Pgp.Ram α} {G : α → Pgp.Out → Prop} (hs : Shifts m)
    (h : ∀ r, Pre r → PgpRuns x op r.others.pgp m G) (hP : ∀ env o, BootEv (.pgp op env o))
    (hq : ∀ (r : Ram) p, Pre r → Post { r with others := { r.others with pgp := p } }) : TrB x Pre (Card.onPgp m) [.pgp] Post := by
  intro w hw
  obtain ⟨o, h1, _⟩ := onPgp_ev w (h _ hw)
  refine ⟨?_, fun _ => hq _ _ hw, [_], ?_, Trace.one h1, List.prefix_refl _, fun _ => rfl⟩
  · obtain ⟨k, hk⟩ := hs ⟨w.flash.others.pgp, w.ram.others.pgp, w.env⟩
    exact ⟨k, hk⟩
  · intro e he
    cases List.mem_singleton.mp he
    exact ⟨hP _ _, Sh.refl _⟩

theorem onPiv {op : Piv.Op} {m : FsM Piv.Flash Piv.Ram α} {G : α → Piv.Out → Prop} (hs : Shifts m)
    (h : ∀ r, Pre r → PivRuns x op r.others.piv m G) (hP : ∀ env o, BootEv (.piv op env o))
    (hq : ∀ (r : Ram) p, Pre r → Post { r with others := { r.others with piv := p } }) : TrB x Pre (Card.onPiv m) [.piv] Post := by
  intro w hw
  obtain ⟨o, h1, _⟩ := onPiv_ev w (h _ hw)
  refine ⟨?_, fun _ => hq _ _ hw, [_], ?_, Trace.one h1, List.prefix_refl _, fun _ => rfl⟩
  · obtain ⟨k, hk⟩ := hs ⟨w.flash.others.piv, w.ram.others.piv, w.env⟩
    exact ⟨k, hk⟩
  · intro e he
    cases List.mem_singleton.mp he
    exact ⟨hP _ _, Sh.refl _⟩

theorem onOath {op : Oath.Op} {m : FsM Oath.Flash Oath.Ram α} {G : α → Oath.Out → Prop} (hs : Shifts m)
    (h : ∀ r, Pre r → OathRuns x op r.others.oath m G) (hP : ∀ env o, BootEv (.oath op env o))
    (hq : ∀ (r : Ram) p, Pre r → Post { r with others := { r.others with oath := p } }) : TrB x Pre (Card.onOath m) [.oath] Post := by
  intro w hw
  obtain ⟨o, h1, _⟩ := onOath_ev w (h _ hw)
  refine ⟨?_, fun _ => hq _ _ hw, [_], ?_, Trace.one h1, List.prefix_refl _, fun _ => rfl⟩
  · obtain ⟨k, hk⟩ := hs ⟨w.flash.others.oath, w.ram.others.oath, w.env⟩
    exact ⟨k, hk⟩
  · intro e he
    cases List.mem_singleton.mp he
    exact ⟨hP _ _, Sh.refl _⟩

theorem onCtap {op : Ctap.Op} {m : FsM Ctap.Flash Ctap.Ram α} {G : α → Ctap.Out → Prop} (hs : Shifts m)
    (h : ∀ r, Pre r → CtapRuns x op r.others.ctap m G) (hP : ∀ env o, BootEv (.ctap op env o))
    (hq : ∀ (r : Ram) p, Pre r → Post { r with others := { r.others with ctap := p } }) : TrB x Pre (Card.onCtap m) [.ctap] Post := by
  intro w hw
  obtain ⟨o, h1, _⟩ := onCtap_ev w (h _ hw)
  refine ⟨?_, fun _ => hq _ _ hw, [_], ?_, Trace.one h1, List.prefix_refl _, fun _ => rfl⟩
  · obtain ⟨k, hk⟩ := hs ⟨w.flash.others.ctap, w.ram.others.ctap, w.env⟩
    exact ⟨k, hk⟩
  · intro e he
    cases List.mem_singleton.mp he
    exact ⟨hP _ _, Sh.refl _⟩

theorem onNdef {op : Ndef.Op} {m : FsM Ndef.Flash Ndef.Ram α} {G : α → Ndef.Out → Prop} (hs : Shifts m)
    (h : ∀ r, Pre r → NdefRuns op r.ndef m G) (hP : ∀ env o, BootEv (.ndef op env o))
    (hq : ∀ (r : Ram) p, Pre r → Post { r with ndef := p }) : TrB x Pre (Card.onNdef m) [.ndef] Post := by
  intro w hw
  obtain ⟨o, h1, _⟩ := onNdef_ev w (h _ hw)
  refine ⟨?_, fun _ => hq _ _ hw, [_], ?_, Trace.one h1, List.prefix_refl _, fun _ => rfl⟩
  · obtain ⟨k, hk⟩ := hs ⟨w.flash.ndef, w.ram.ndef, w.env⟩
    exact ⟨k, hk⟩
  · intro e he
    cases List.mem_singleton.mp he
    exact ⟨hP _ _, Sh.refl _⟩

end TrB

/-- The variables of the applets not yet installed are still clear. -/
def Clear (piv ctap ndef : Bool) (r : Ram) : Prop :=
  (piv → r.others.piv = Piv.Ram.init) ∧ (ctap → r.others.ctap = Ctap.Ram.init) ∧ (ndef → r.ndef = Ndef.Ram.init)

theorem Clear.stable {a b c : Bool} : Stable (Clear a b c) := by
  intro r r' h1 h2 h
  unfold Clear at h ⊢
  rw [h1, h2]
  exact h

theorem install_boot {a b c : Bool} (y : Bool) :
    CTr x OnlyAdm (Clear a b c) (Admin.install y : Admin.M Fl Rm Unit) (Clear a b c) := by
  have hs : Stable (Clear a b c) := Clear.stable
  have h0 : OnlyAdm .adm := rfl
  unfold Admin.install
  repeat' (with_reducible first
    | exact CTr.pure fun _ h => h | exact CTr.throw fun _ h => h
    | (apply CTr.get h0 hs) | exact CTr.rdF h0 hs | exact CTr.rdOr h0 hs
    | (apply CTr.mod h0 hs; intro r; exact ⟨rfl, rfl⟩)
    | (apply CTr.wrOr h0 hs; intro f f' h; cases h; exact ⟨rfl, rfl⟩)
    | exact CTr.onPin h0 hs pinGetRetries_shifts
    | exact CTr.onPin h0 hs (pinCreate_shifts _ _)
    | (refine CTr.bind (Mid := Clear a b c) ?_ ?_ fun _ h => h) | apply CTr.ite | intro _ | split)

theorem boot_tr :
    TrB x (fun r => r.others.pgp = Pgp.Ram.init ∧ Clear true true true r) (Admin.boot (admExt x))
      [.pgp, .piv, .oath, .ctap, .ndef, .oath] fun _ => True := by
  unfold Admin.boot
  refine TrB.bind (L := [.pgp]) (L' := [.piv, .oath, .ctap, .ndef, .oath]) (Mid := Clear true true true)
    (TrB.other (TrB.onPgp (G := fun _ o => o ≠ .cut) (succeeds_shifts (pgpInstall_shifts false)) (fun r hr => ?_) (fun _ _ => rfl)
      (fun r p h => h.2))) fun _ => ?_
  · rw [hr.1]; exact pgp_boot
  refine TrB.bind (L := [.piv]) (L' := [.oath, .ctap, .ndef, .oath]) (Mid := Clear false true true)
    (TrB.other (TrB.dep (m := fun b => onPiv (succeeds (Piv.install false b))) (g := fun r => r.others.rnd.piv)
      fun b => TrB.onPiv (op := .boot b) (G := fun _ o => o ≠ .cut) (succeeds_shifts (pivInstall_shifts false b)) (fun r hr => ?_) (fun _ _ => ⟨_, rfl⟩)
        (fun r p h => ⟨(fun h => by cases h), h.1.2⟩))) fun _ => ?_
  · rw [hr.1.1 rfl]; exact piv_boot b
  refine TrB.bind (L := [.oath]) (L' := [.ctap, .ndef, .oath]) (Mid := Clear false true true)
    (TrB.other (TrB.dep (m := fun b => onOath (succeeds (Oath.install false b))) (g := fun r => r.others.rnd.oath)
      fun b => TrB.onOath (succeeds_shifts (oathInstall_shifts false b)) (fun _ _ => oath_install false b _)
        (fun _ _ => .inl ⟨_, rfl⟩) (fun r p h => h.1))) fun _ => ?_
  refine TrB.bind (L := [.ctap]) (L' := [.ndef, .oath]) (Mid := Clear false false true)
    (TrB.other (TrB.dep (m := fun b => onCtap (shows (Ctap.install b false) (fun _ => .done) >>= fun _ => pure true))
      (g := fun r => r.others.rnd.ctap)
      fun b => TrB.onCtap (op := .powerOn b) (G := fun b' o => ∃ a, b' = true ∧ o = a) (Shifts.map (shows_shifts (ctapInstall_shifts b false)) _) (fun r hr => ?_)
        (fun _ _ => ⟨_, rfl⟩) (fun r p h => ⟨(fun h => by cases h), (fun h => by cases h), h.1.2.2⟩))) fun _ => ?_
  · rw [hr.1.2.1 rfl]; exact (ctap_powerOn b).map fun _ => true
  refine TrB.bind (L := []) (L' := [.ndef, .oath]) (Mid := Clear false false true) (TrB.of (install_boot false))
    fun _ => ?_
  refine TrB.bind (L := [.ndef]) (L' := [.oath]) (Mid := fun _ => True)
    (TrB.onNdef (G := endsAs) (ndefInstall_shifts false) (fun r hr => ?_) (fun _ _ => rfl) (fun _ _ _ => trivial)) fun _ => ?_
  · rw [hr.2.2 rfl]; exact ndef_boot
  refine TrB.bind (L := [.oath]) (L' := []) (Mid := fun _ => True)
    (TrB.other (TrB.onOath (succeeds_shifts (passInstall_shifts false)) (fun _ _ => oath_passInstall false _)
      (fun _ _ => .inr rfl) (fun _ _ _ => trivial))) fun _ => ?_
  exact TrB.of (TrM.pure fun _ h => h)

end Verif.Card
