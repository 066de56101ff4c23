import Verif.Model.Card
/-
Every operation of the card is a sequence of operations of its applets.
-/
namespace Verif.Card
open Apdu (Capdu Rapdu Applet Chain PivState)

/-- Flash and RAM of all applets; no RAM while the device is off. -/
abbrev J := Flash × Option Ram

/-- An operation of one applet, with the fault schedule it meets and what is observed; `adm` is anything the admin
applet does with its own data. -/
inductive Ev where
  | power (r : Rnd) (env : Env)
  | pgp (op : Pgp.Op) (env : Env) (o : Pgp.Out)
  | piv (op : Piv.Op) (env : Env) (o : Piv.Out)
  | oath (op : Oath.Op) (env : Env) (o : Oath.Out)
  | ctap (op : Ctap.Op) (env : Env) (o : Ctap.Out)
  | ndef (op : Ndef.Op) (env : Env) (o : Ndef.Out)
  | adm

def setPgp (f : Flash) (r : Ram) (s : Pgp.St) : J :=
  ({ f with others := { f.others with pgp := s.flash } },
   s.ram.map fun p => { r with others := { r.others with pgp := p } })

def setPiv (f : Flash) (r : Ram) (s : Piv.St) : J :=
  ({ f with others := { f.others with piv := s.flash } },
   s.ram.map fun p => { r with others := { r.others with piv := p } })

def setNdef (f : Flash) (r : Ram) (s : Ndef.St) : J :=
  ({ f with ndef := s.flash }, s.ram.map fun p => { r with ndef := p })

def setOath (f : Flash) (r : Ram) (s : Oath.St) (o : Oath.Out) : J :=
  ({ f with others := { f.others with oath := s.flash } },
   if o = .cut then none else some { r with others := { r.others with oath := s.ram } })

def setCtap (f : Flash) (r : Ram) (s : Ctap.St) (o : Ctap.Out) : J :=
  ({ f with others := { f.others with ctap := s.flash } },
   if o = .cut then none else some { r with others := { r.others with ctap := s.ram } })

/-- The effect of an event: each applet changes only its own part, as its own model says. -/
inductive EvStep (x : Ext) : J → Ev → J → Prop where
  | power (f : Flash) (o : Option Ram) (r : Rnd) (env : Env) :
      EvStep x (f, o) (.power r env) (f, some (Admin.Ram.init (Rm.init r)))
  | pgp (f : Flash) (r : Ram) (op : Pgp.Op) (env : Env) (s : Pgp.St) (o : Pgp.Out)
      (h : Pgp.step x.pgp ⟨f.others.pgp, some r.others.pgp⟩ op env = (s, o)) :
      EvStep x (f, some r) (.pgp op env o) (setPgp f r s)
  | piv (f : Flash) (r : Ram) (op : Piv.Op) (env : Env) (s : Piv.St) (o : Piv.Out)
      (h : Piv.step x.piv ⟨f.others.piv, some r.others.piv⟩ op env = (s, o)) :
      EvStep x (f, some r) (.piv op env o) (setPiv f r s)
  | oath (f : Flash) (r : Ram) (op : Oath.Op) (env : Env) (s : Oath.St) (o : Oath.Out)
      (h : Oath.step x.oath ⟨f.others.oath, r.others.oath⟩ op env = (s, o)) :
      EvStep x (f, some r) (.oath op env o) (setOath f r s o)
  | ctap (f : Flash) (r : Ram) (op : Ctap.Op) (env : Env) (s : Ctap.St) (o : Ctap.Out)
      (h : Ctap.step x.ctap ⟨f.others.ctap, r.others.ctap⟩ op env = (s, o)) :
      EvStep x (f, some r) (.ctap op env o) (setCtap f r s o)
  | ndef (f : Flash) (r : Ram) (op : Ndef.Op) (env : Env) (s : Ndef.St) (o : Ndef.Out)
      (h : Ndef.step ⟨f.ndef, some r.ndef⟩ op env = (s, o)) :
      EvStep x (f, some r) (.ndef op env o) (setNdef f r s)
  | adm (f f' : Flash) (r : Ram) (r' : Option Ram) (hf : f'.others = f.others) (hn : f'.ndef = f.ndef)
      (hr : ∀ q, r' = some q → q.ndef = r.ndef ∧ q.others.pgp = r.others.pgp ∧ q.others.piv = r.others.piv ∧
        q.others.oath = r.others.oath ∧ q.others.ctap = r.others.ctap) :
      EvStep x (f, some r) .adm (f', r')

inductive Trace (x : Ext) : J → List Ev → J → Prop where
  | nil (j : J) : Trace x j [] j
  | cons {j j' j'' : J} {e : Ev} {es : List Ev} : EvStep x j e j' → Trace x j' es j'' → Trace x j (e :: es) j''

theorem Trace.one {x : Ext} {j j' : J} {e : Ev} (h : EvStep x j e j') : Trace x j [e] j' := .cons h (.nil _)

theorem Trace.append {x : Ext} {j j' j'' : J} {es es' : List Ev} (h : Trace x j es j') (h' : Trace x j' es' j'') :
    Trace x j (es ++ es') j'' := by
  induction h with
  | nil => exact h'
  | cons hs _ ih => exact .cons hs (ih h')

/-- The rest of a fault schedule. -/
def Sh (env env' : Env) : Prop := ∃ k, env' = fun n => env (n + k)

theorem Sh.refl (env : Env) : Sh env env := ⟨0, rfl⟩
theorem Sh.trans {a b c : Env} (h : Sh a b) (h' : Sh b c) : Sh a c := by
  obtain ⟨k, rfl⟩ := h
  obtain ⟨j, rfl⟩ := h'
  exact ⟨j + k, by funext n; show a (n + j + k) = a (n + (j + k)); rw [Nat.add_assoc]⟩

theorem Sh.all {a b : Env} {A : Fault → Prop} (h : Sh a b) (ha : a.all A) : b.all A := by
  obtain ⟨k, rfl⟩ := h
  exact fun n => ha (n + k)

/-- The schedule of the event is a rest of the given one. -/
def Ev.Uses (env : Env) : Ev → Prop
  | .pgp _ e _ | .piv _ e _ | .oath _ e _ | .ctap _ e _ | .ndef _ e _ | .power _ e => Sh env e
  | .adm => True

theorem Ev.Uses.trans {a b : Env} {e : Ev} (h : Sh a b) (he : e.Uses b) : e.Uses a := by
  cases e with
  | adm => trivial
  | power | pgp | piv | oath | ctap | ndef => exact h.trans he

/-- State after a computation. -/
def jOf {α : Type} (p : Option α × World Flash Ram) : J := (p.2.flash, p.1.map fun _ => p.2.ram)

/-- Started with RAM in `Pre`, the computation is a sequence of events in `P`, and ends in `Post` unless power is
cut. -/
def TrM {α : Type} (x : Ext) (P : Ev → Prop) (Pre : Ram → Prop) (m : FsM Flash Ram α) (Post : Ram → Prop) : Prop :=
  ∀ w : World Flash Ram, Pre w.ram → Sh w.env (m w).2.env ∧ ((m w).1 ≠ none → Post (m w).2.ram) ∧
    ∃ es, (∀ e ∈ es, P e ∧ e.Uses w.env) ∧ Trace x (w.flash, some w.ram) es (jOf (m w))

namespace TrM
variable {α β ε : Type} {x : Ext} {P : Ev → Prop} {Pre Mid Post : Ram → Prop}

theorem pure {a : α} (h : ∀ r, Pre r → Post r) : TrM x P Pre (Pure.pure a : FsM Flash Ram α) Post :=
  fun w hw => ⟨Sh.refl w.env, fun _ => h _ hw, [], (fun _ he => by cases he), Trace.nil (w.flash, some w.ram)⟩

theorem bind {m : FsM Flash Ram α} {g : α → FsM Flash Ram β} (h : TrM x P Pre m Mid)
    (h' : ∀ a, TrM x P Mid (g a) Post) : TrM x P Pre (m >>= g) Post := by
  intro w hw
  obtain ⟨h1, h2, es, h3, h4⟩ := h w hw
  rw [FsM.bind_eq]
  cases hm : m w with
  | mk o w' =>
    rw [hm] at h1 h2 h4
    cases o with
    | none => exact ⟨h1, (fun h => absurd rfl h), es, h3, h4⟩
    | some a =>
      obtain ⟨g1, g2, es', g3, g4⟩ := h' a w' (h2 (by intro h; cases h))
      exact ⟨h1.trans g1, g2, es ++ es', fun e he => (List.mem_append.mp he).elim (h3 e)
        (fun he => ⟨(g3 e he).1, (g3 e he).2.trans h1⟩), h4.append g4⟩

theorem mono {m : FsM Flash Ram α} {Q : Ev → Prop} {Pre' Post' : Ram → Prop} (h : TrM x P Pre m Post)
    (hp : ∀ e, P e → Q e) (h1 : ∀ r, Pre' r → Pre r) (h2 : ∀ r, Post r → Post' r) : TrM x Q Pre' m Post' := by
  intro w hw
  obtain ⟨a, b, es, c, d⟩ := h w (h1 _ hw)
  exact ⟨a, fun h => h2 _ (b h), es, fun e he => ⟨hp _ (c e he).1, (c e he).2⟩, d⟩

end TrM

/-! ### The applets as parts -/

/-- `N` if power is cut, `S` otherwise. -/
def Ends {φ ρ α : Type} (v : Option α × World φ ρ) (N : World φ ρ → Prop) (S : α → World φ ρ → Prop) : Prop :=
  match v with
  | (none, w) => N w
  | (some a, w) => S a w

/-- The computation is the operation `op` of the OpenPGP applet; `G` relates its result and what is observed. -/
def PgpRuns {α : Type} (x : Ext) (op : Pgp.Op) (r : Pgp.Ram) (m : FsM Pgp.Flash Pgp.Ram α) (G : α → Pgp.Out → Prop) :
    Prop :=
  ∀ f env, Ends (m ⟨f, r, env⟩) (fun w => Pgp.step x.pgp ⟨f, some r⟩ op env = (⟨w.flash, none⟩, .cut))
    fun a w => ∃ o, Pgp.step x.pgp ⟨f, some r⟩ op env = (⟨w.flash, some w.ram⟩, o) ∧ G a o

/-- The computation on the whole card. -/
def onPgp {α : Type} (m : FsM Pgp.Flash Pgp.Ram α) : FsM Flash Ram α :=
  FsM.zoom Admin.othF Admin.othR (FsM.zoom pgpF pgpR m)

theorem onPgp_eq {α : Type} (m : FsM Pgp.Flash Pgp.Ram α) (w : World Flash Ram) {a : Option α}
    {v : World Pgp.Flash Pgp.Ram} (hm : m ⟨w.flash.others.pgp, w.ram.others.pgp, w.env⟩ = (a, v)) :
    onPgp m w = (a, ⟨{ w.flash with others := { w.flash.others with pgp := v.flash } }, { w.ram with others := { w.ram.others with pgp := v.ram } }, v.env⟩) := by
  unfold onPgp FsM.zoom pgpF pgpR Admin.othF Admin.othR
  simp only [hm]

theorem onPgp_ev {α : Type} {x : Ext} {op : Pgp.Op} {m : FsM Pgp.Flash Pgp.Ram α} {G : α → Pgp.Out → Prop}
    (w : World Flash Ram) (h : PgpRuns x op w.ram.others.pgp m G) :
    ∃ o, EvStep x (w.flash, some w.ram) (.pgp op w.env o) (jOf (onPgp m w)) ∧
      (match (onPgp m w).1 with
        | none => o = .cut
        | some a => G a o) := by
  have h1 := h w.flash.others.pgp w.env
  cases hm : m ⟨w.flash.others.pgp, w.ram.others.pgp, w.env⟩ with
  | mk a v =>
    have hw := onPgp_eq m w hm
    rw [hm] at h1
    cases a with
    | none =>
      have h1 : Pgp.step x.pgp _ op w.env = _ := h1
      refine ⟨.cut, ?_, by rw [hw]⟩
      rw [hw]
      exact .pgp _ _ _ _ _ _ h1
    | some a =>
      obtain ⟨o, h2, h3⟩ := h1
      refine ⟨o, ?_, by rw [hw]; exact h3⟩
      rw [hw]
      exact .pgp _ _ _ _ _ _ h2

theorem TrM.onPgp {α : Type} {x : Ext} {P : Ev → Prop} {Pre Post : Ram → Prop} {op : Pgp.Op}
    {m : FsM Pgp.Flash Pgp.Ram α} {G : α → Pgp.Out → Prop} (hs : Shifts m)
    (h : ∀ r, Pre r → PgpRuns x op r.others.pgp m G) (hP : ∀ env o, P (.pgp op env o))
    (hq : ∀ r p, Pre r → Post { r with others := { r.others with pgp := p } }) : TrM x P Pre (Card.onPgp m) Post := by
  intro w hw
  obtain ⟨o, h1, _⟩ := onPgp_ev w (h _ hw)
  refine ⟨?_, ?_, [_], ?_, Trace.one h1⟩
  · obtain ⟨k, hk⟩ := hs ⟨w.flash.others.pgp, w.ram.others.pgp, w.env⟩
    exact ⟨k, hk⟩
  · intro _
    exact hq _ _ hw
  · intro e he
    cases List.mem_singleton.mp he
    exact ⟨hP _ _, Sh.refl _⟩

/-- The computation is the operation `op` of the PIV applet; `G` relates its result and what is observed. -/
def PivRuns {α : Type} (x : Ext) (op : Piv.Op) (r : Piv.Ram) (m : FsM Piv.Flash Piv.Ram α) (G : α → Piv.Out → Prop) :
    Prop :=
  ∀ f env, Ends (m ⟨f, r, env⟩) (fun w => Piv.step x.piv ⟨f, some r⟩ op env = (⟨w.flash, none⟩, .cut))
    fun a w => ∃ o, Piv.step x.piv ⟨f, some r⟩ op env = (⟨w.flash, some w.ram⟩, o) ∧ G a o

/-- The computation on the whole card. -/
def onPiv {α : Type} (m : FsM Piv.Flash Piv.Ram α) : FsM Flash Ram α :=
  FsM.zoom Admin.othF Admin.othR (FsM.zoom pivF pivR m)

theorem onPiv_eq {α : Type} (m : FsM Piv.Flash Piv.Ram α) (w : World Flash Ram) {a : Option α}
    {v : World Piv.Flash Piv.Ram} (hm : m ⟨w.flash.others.piv, w.ram.others.piv, w.env⟩ = (a, v)) :
    onPiv m w = (a, ⟨{ w.flash with others := { w.flash.others with piv := v.flash } }, { w.ram with others := { w.ram.others with piv := v.ram } }, v.env⟩) := by
  unfold onPiv FsM.zoom pivF pivR Admin.othF Admin.othR
  simp only [hm]

theorem onPiv_ev {α : Type} {x : Ext} {op : Piv.Op} {m : FsM Piv.Flash Piv.Ram α} {G : α → Piv.Out → Prop}
    (w : World Flash Ram) (h : PivRuns x op w.ram.others.piv m G) :
    ∃ o, EvStep x (w.flash, some w.ram) (.piv op w.env o) (jOf (onPiv m w)) ∧
      (match (onPiv m w).1 with
        | none => o = .cut
        | some a => G a o) := by
  have h1 := h w.flash.others.piv w.env
  cases hm : m ⟨w.flash.others.piv, w.ram.others.piv, w.env⟩ with
  | mk a v =>
    have hw := onPiv_eq m w hm
    rw [hm] at h1
    cases a with
    | none =>
      have h1 : Piv.step x.piv _ op w.env = _ := h1
      refine ⟨.cut, ?_, by rw [hw]⟩
      rw [hw]
      exact .piv _ _ _ _ _ _ h1
    | some a =>
      obtain ⟨o, h2, h3⟩ := h1
      refine ⟨o, ?_, by rw [hw]; exact h3⟩
      rw [hw]
      exact .piv _ _ _ _ _ _ h2

theorem TrM.onPiv {α : Type} {x : Ext} {P : Ev → Prop} {Pre Post : Ram → Prop} {op : Piv.Op}
    {m : FsM Piv.Flash Piv.Ram α} {G : α → Piv.Out → Prop} (hs : Shifts m)
    (h : ∀ r, Pre r → PivRuns x op r.others.piv m G) (hP : ∀ env o, P (.piv op env o))
    (hq : ∀ r p, Pre r → Post { r with others := { r.others with piv := p } }) : TrM x P Pre (Card.onPiv m) Post := by
  intro w hw
  obtain ⟨o, h1, _⟩ := onPiv_ev w (h _ hw)
  refine ⟨?_, ?_, [_], ?_, Trace.one h1⟩
  · obtain ⟨k, hk⟩ := hs ⟨w.flash.others.piv, w.ram.others.piv, w.env⟩
    exact ⟨k, hk⟩
  · intro _
    exact hq _ _ hw
  · intro e he
    cases List.mem_singleton.mp he
    exact ⟨hP _ _, Sh.refl _⟩

/-- The computation is the operation `op` of the NDEF applet; `G` relates its result and what is observed. -/
def NdefRuns {α : Type} (op : Ndef.Op) (r : Ndef.Ram) (m : FsM Ndef.Flash Ndef.Ram α) (G : α → Ndef.Out → Prop) :
    Prop :=
  ∀ f env, Ends (m ⟨f, r, env⟩) (fun w => Ndef.step ⟨f, some r⟩ op env = (⟨w.flash, none⟩, .cut))
    fun a w => ∃ o, Ndef.step ⟨f, some r⟩ op env = (⟨w.flash, some w.ram⟩, o) ∧ G a o

/-- The computation on the whole card. -/
def onNdef {α : Type} (m : FsM Ndef.Flash Ndef.Ram α) : FsM Flash Ram α :=
  FsM.zoom Admin.ndefF Admin.ndefR m

theorem onNdef_eq {α : Type} (m : FsM Ndef.Flash Ndef.Ram α) (w : World Flash Ram) {a : Option α}
    {v : World Ndef.Flash Ndef.Ram} (hm : m ⟨w.flash.ndef, w.ram.ndef, w.env⟩ = (a, v)) :
    onNdef m w = (a, ⟨{ w.flash with ndef := v.flash }, { w.ram with ndef := v.ram }, v.env⟩) := by
  unfold onNdef FsM.zoom Admin.ndefF Admin.ndefR
  simp only [hm]

theorem onNdef_ev {α : Type} {x : Ext} {op : Ndef.Op} {m : FsM Ndef.Flash Ndef.Ram α} {G : α → Ndef.Out → Prop}
    (w : World Flash Ram) (h : NdefRuns op w.ram.ndef m G) :
    ∃ o, EvStep x (w.flash, some w.ram) (.ndef op w.env o) (jOf (onNdef m w)) ∧
      (match (onNdef m w).1 with
        | none => o = .cut
        | some a => G a o) := by
  have h1 := h w.flash.ndef w.env
  cases hm : m ⟨w.flash.ndef, w.ram.ndef, w.env⟩ with
  | mk a v =>
    have hw := onNdef_eq m w hm
    rw [hm] at h1
    cases a with
    | none =>
      have h1 : Ndef.step _ op w.env = _ := h1
      refine ⟨.cut, ?_, by rw [hw]⟩
      rw [hw]
      exact .ndef _ _ _ _ _ _ h1
    | some a =>
      obtain ⟨o, h2, h3⟩ := h1
      refine ⟨o, ?_, by rw [hw]; exact h3⟩
      rw [hw]
      exact .ndef _ _ _ _ _ _ h2

theorem TrM.onNdef {α : Type} {x : Ext} {P : Ev → Prop} {Pre Post : Ram → Prop} {op : Ndef.Op}
    {m : FsM Ndef.Flash Ndef.Ram α} {G : α → Ndef.Out → Prop} (hs : Shifts m)
    (h : ∀ r, Pre r → NdefRuns op r.ndef m G) (hP : ∀ env o, P (.ndef op env o))
    (hq : ∀ r p, Pre r → Post { r with ndef := p }) : TrM x P Pre (Card.onNdef m) Post := by
  intro w hw
  obtain ⟨o, h1, _⟩ := onNdef_ev w (h _ hw)
  refine ⟨?_, ?_, [_], ?_, Trace.one h1⟩
  · obtain ⟨k, hk⟩ := hs ⟨w.flash.ndef, w.ram.ndef, w.env⟩
    exact ⟨k, hk⟩
  · intro _
    exact hq _ _ hw
  · intro e he
    cases List.mem_singleton.mp he
    exact ⟨hP _ _, Sh.refl _⟩

/-- The computation is the operation `op` of the OATH applet; `G` relates its result and what is observed. -/
def OathRuns {α : Type} (x : Ext) (op : Oath.Op) (r : Oath.Ram) (m : FsM Oath.Flash Oath.Ram α) (G : α → Oath.Out → Prop) :
    Prop :=
  ∀ f env, Ends (m ⟨f, r, env⟩) (fun w => ∃ q, Oath.step x.oath ⟨f, r⟩ op env = (⟨w.flash, q⟩, .cut))
    fun a w => ∃ o, Oath.step x.oath ⟨f, r⟩ op env = (⟨w.flash, w.ram⟩, o) ∧ o ≠ .cut ∧ G a o

/-- The computation on the whole card. -/
def onOath {α : Type} (m : FsM Oath.Flash Oath.Ram α) : FsM Flash Ram α :=
  FsM.zoom Admin.othF Admin.othR (FsM.zoom oathF oathR m)

theorem onOath_eq {α : Type} (m : FsM Oath.Flash Oath.Ram α) (w : World Flash Ram) {a : Option α}
    {v : World Oath.Flash Oath.Ram} (hm : m ⟨w.flash.others.oath, w.ram.others.oath, w.env⟩ = (a, v)) :
    onOath m w = (a, ⟨{ w.flash with others := { w.flash.others with oath := v.flash } },
      { w.ram with others := { w.ram.others with oath := v.ram } }, v.env⟩) := by
  unfold onOath FsM.zoom oathF oathR Admin.othF Admin.othR
  simp only [hm]

theorem onOath_ev {α : Type} {x : Ext} {op : Oath.Op} {m : FsM Oath.Flash Oath.Ram α} {G : α → Oath.Out → Prop}
    (w : World Flash Ram) (h : OathRuns x op w.ram.others.oath m G) :
    ∃ o, EvStep x (w.flash, some w.ram) (.oath op w.env o) (jOf (onOath m w)) ∧
      (match (onOath m w).1 with
        | none => o = .cut
        | some a => o ≠ .cut ∧ G a o) := by
  have h1 := h w.flash.others.oath w.env
  cases hm : m ⟨w.flash.others.oath, w.ram.others.oath, w.env⟩ with
  | mk a v =>
    have hw := onOath_eq m w hm
    rw [hm] at h1
    cases a with
    | none =>
      obtain ⟨q, h1⟩ := h1
      refine ⟨.cut, ?_, by rw [hw]⟩
      rw [hw]
      exact EvStep.oath (x := x) _ w.ram _ _ _ _ h1
    | some a =>
      obtain ⟨o, h2, h3, h4⟩ := h1
      refine ⟨o, ?_, by rw [hw]; exact ⟨h3, h4⟩⟩
      rw [hw]
      have := EvStep.oath (x := x) _ w.ram _ _ _ _ h2
      unfold setOath at this
      rw [if_neg h3] at this
      exact this

theorem TrM.onOath {α : Type} {x : Ext} {P : Ev → Prop} {Pre Post : Ram → Prop} {op : Oath.Op}
    {m : FsM Oath.Flash Oath.Ram α} {G : α → Oath.Out → Prop} (hs : Shifts m)
    (h : ∀ r, Pre r → OathRuns x op r.others.oath m G) (hP : ∀ env o, P (.oath op env o))
    (hq : ∀ r p, Pre r → Post { r with others := { r.others with oath := p } }) : TrM x P Pre (Card.onOath m) Post := by
  intro w hw
  obtain ⟨o, h1, _⟩ := onOath_ev w (h _ hw)
  refine ⟨?_, ?_, [_], ?_, Trace.one h1⟩
  · obtain ⟨k, hk⟩ := hs ⟨w.flash.others.oath, w.ram.others.oath, w.env⟩
    exact ⟨k, hk⟩
  · intro _
    exact hq _ _ hw
  · intro e he
    cases List.mem_singleton.mp he
    exact ⟨hP _ _, Sh.refl _⟩

/-- The computation is the operation `op` of the FIDO applet; `G` relates its result and what is observed. -/
def CtapRuns {α : Type} (x : Ext) (op : Ctap.Op) (r : Ctap.Ram) (m : FsM Ctap.Flash Ctap.Ram α) (G : α → Ctap.Out → Prop) :
    Prop :=
  ∀ f env, Ends (m ⟨f, r, env⟩) (fun w => ∃ q, Ctap.step x.ctap ⟨f, r⟩ op env = (⟨w.flash, q⟩, .cut))
    fun a w => ∃ o, Ctap.step x.ctap ⟨f, r⟩ op env = (⟨w.flash, w.ram⟩, o) ∧ o ≠ .cut ∧ G a o

/-- The computation on the whole card. -/
def onCtap {α : Type} (m : FsM Ctap.Flash Ctap.Ram α) : FsM Flash Ram α :=
  FsM.zoom Admin.othF Admin.othR (FsM.zoom ctapF ctapR m)

theorem onCtap_eq {α : Type} (m : FsM Ctap.Flash Ctap.Ram α) (w : World Flash Ram) {a : Option α}
    {v : World Ctap.Flash Ctap.Ram} (hm : m ⟨w.flash.others.ctap, w.ram.others.ctap, w.env⟩ = (a, v)) :
    onCtap m w = (a, ⟨{ w.flash with others := { w.flash.others with ctap := v.flash } },
      { w.ram with others := { w.ram.others with ctap := v.ram } }, v.env⟩) := by
  unfold onCtap FsM.zoom ctapF ctapR Admin.othF Admin.othR
  simp only [hm]

theorem onCtap_ev {α : Type} {x : Ext} {op : Ctap.Op} {m : FsM Ctap.Flash Ctap.Ram α} {G : α → Ctap.Out → Prop}
    (w : World Flash Ram) (h : CtapRuns x op w.ram.others.ctap m G) :
    ∃ o, EvStep x (w.flash, some w.ram) (.ctap op w.env o) (jOf (onCtap m w)) ∧
      (match (onCtap m w).1 with
        | none => o = .cut
        | some a => o ≠ .cut ∧ G a o) := by
  have h1 := h w.flash.others.ctap w.env
  cases hm : m ⟨w.flash.others.ctap, w.ram.others.ctap, w.env⟩ with
  | mk a v =>
    have hw := onCtap_eq m w hm
    rw [hm] at h1
    cases a with
    | none =>
      obtain ⟨q, h1⟩ := h1
      refine ⟨.cut, ?_, by rw [hw]⟩
      rw [hw]
      exact EvStep.ctap (x := x) _ w.ram _ _ _ _ h1
    | some a =>
      obtain ⟨o, h2, h3, h4⟩ := h1
      refine ⟨o, ?_, by rw [hw]; exact ⟨h3, h4⟩⟩
      rw [hw]
      have := EvStep.ctap (x := x) _ w.ram _ _ _ _ h2
      unfold setCtap at this
      rw [if_neg h3] at this
      exact this

theorem TrM.onCtap {α : Type} {x : Ext} {P : Ev → Prop} {Pre Post : Ram → Prop} {op : Ctap.Op}
    {m : FsM Ctap.Flash Ctap.Ram α} {G : α → Ctap.Out → Prop} (hs : Shifts m)
    (h : ∀ r, Pre r → CtapRuns x op r.others.ctap m G) (hP : ∀ env o, P (.ctap op env o))
    (hq : ∀ r p, Pre r → Post { r with others := { r.others with ctap := p } }) : TrM x P Pre (Card.onCtap m) Post := by
  intro w hw
  obtain ⟨o, h1, _⟩ := onCtap_ev w (h _ hw)
  refine ⟨?_, ?_, [_], ?_, Trace.one h1⟩
  · obtain ⟨k, hk⟩ := hs ⟨w.flash.others.ctap, w.ram.others.ctap, w.env⟩
    exact ⟨k, hk⟩
  · intro _
    exact hq _ _ hw
  · intro e he
    cases List.mem_singleton.mp he
    exact ⟨hP _ _, Sh.refl _⟩

end Verif.Card
