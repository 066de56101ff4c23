import Verif.Lemmas.CardStep
/-
The applets of the card run as if they were alone.
-/
namespace Verif.Card
open Apdu (Capdu Rapdu Applet Chain PivState)
open Spec.Card

/-- The step law of an applet: `s` is its state before the event, `r'` its part of the state after it. -/
def Moves {σ ο ω : Type} (step : σ → ο → Env → σ × ω) (View : σ → Prop) (s : σ) : Option (ο × Env × ω) → Prop
  | none => View s
  | some (op, env, o) => (step s op env).2 = o ∧ View (step s op env).1

/-- An applet as a part of the card. -/
structure Comp (x : Ext) where
  σ : Type
  ο : Type
  ω : Type
  step : σ → ο → Env → σ × ω
  /-- its part of flash and RAM -/
  st : Flash → Ram → σ
  /-- the state agrees with flash -/
  off : Flash → σ → Prop
  /-- the same in the course of booting, before the turn of the applet -/
  wk : J → σ → Prop
  /-- its events -/
  ofEv : Ev → Option (ο × Env × ω)
  who : Who
  st_off : ∀ f r, off f (st f r)
  st_rnd : ∀ f r q, st f { r with others := { r.others with rnd := q } } = st f r
  ofEv_who : ∀ e, (ofEv e).isSome → e.who = who ∨ e.who = .power
  who_ofEv : ∀ e, e.who = who → (ofEv e).isSome
  who_mem : who ∈ [Who.pgp, .piv, .oath, .ctap, .ndef, .oath]
  ev : ∀ f r e j, EvStep x (f, some r) e j → e.who ≠ .power →
    Moves step (fun s => (∀ r', j.2 = some r' → s = st j.1 r') ∧ off j.1 s) (st f r) (ofEv e)
  wk_power : ∀ j r env j' s, EvStep x j (.power r env) j' → off j.1 s → Moves step (wk j') s (ofEv (.power r env))
  wk_boot : ∀ j e j' s, EvStep x j e j' → e.who ≠ .power → BootEv e → wk j s →
    Moves step (fun s => wk j' s ∧ ((ofEv e).isSome → (∀ r', j'.2 = some r' → s = st j'.1 r') ∧ off j'.1 s)) s (ofEv e)
  wk_off : ∀ f s, wk (f, none) s → off f s

/-- The state of the applet is its part of the state of the card; RAM counts while the device is on. -/
def Comp.View {x : Ext} (C : Comp x) (j : J) (s : C.σ) : Prop := (∀ r, j.2 = some r → s = C.st j.1 r) ∧ C.off j.1 s

/-- Consecutive steps of an applet, oldest first, with the fault schedules they meet. -/
inductive Steps {σ ο ω : Type} (step : σ → ο → Env → σ × ω) : σ → List (σ × ο × ω) → List Env → σ → Prop where
  | nil (s : σ) : Steps step s [] [] s
  | cons {s s' : σ} {op : ο} {env : Env} {o : ω} {l : List (σ × ο × ω)} {es : List Env} :
      (step s op env).2 = o → Steps step (step s op env).1 l es s' → Steps step s ((s, op, o) :: l) (env :: es) s'

theorem Steps.append {σ ο ω : Type} {step : σ → ο → Env → σ × ω} {s s' s'' : σ} {l l' : List (σ × ο × ω)}
    {es es' : List Env} (h : Steps step s l es s') (h' : Steps step s' l' es' s'') :
    Steps step s (l ++ l') (es ++ es') s'' := by
  induction h with
  | nil => exact h'
  | cons ho _ ih => exact .cons ho (ih h')

/-- What the applet sees of events. -/
def Comp.evs {x : Ext} (C : Comp x) (es : List Ev) : List (C.ο × C.ω) := (es.filterMap C.ofEv).map fun e => (e.1, e.2.2)

namespace Comp
variable {x : Ext} (C : Comp x)

theorem evs_append (es es' : List Ev) : C.evs (es ++ es') = C.evs es ++ C.evs es' := by
  unfold evs
  rw [List.filterMap_append, List.map_append]

theorem uses {e : Ev} {env : Env} {t : C.ο × Env × C.ω} (h : C.ofEv e = some t)
    (hu : ∀ e op env' o, C.ofEv e = some (op, env', o) → e.Uses env → Sh env env') (he : e.Uses env) : Sh env t.2.1 :=
  hu e t.1 t.2.1 t.2.2 h he

/-- A trace without power-up, as the applet sees it. -/
theorem trace {j j' : J} {es : List Ev} (h : Trace x j es j') (hp : ∀ e ∈ es, e.who ≠ .power) :
    ∀ s, C.View j s → ∃ l envs s', Steps C.step s l envs s' ∧ obs l = C.evs es ∧
      envs = (es.filterMap C.ofEv).map (·.2.1) ∧ C.View j' s' ∧
      ∀ r, j.2 = some r → ∀ e, l.head? = some e → e.1 = C.st j.1 r := by
  induction h with
  | nil j => exact fun s hs => ⟨[], [], s, .nil _, rfl, rfl, hs, fun _ _ _ h => by cases h⟩
  | @cons j j1 j2 e es he _ ih =>
    intro s hs
    have hw := hp e (.head _)
    have hj : ∃ f r, j = (f, some r) := by
      cases he with
      | power => exact absurd rfl hw
      | pgp f r | piv f r | oath f r | ctap f r | ndef f r | adm f _ r => exact ⟨f, r, rfl⟩
    obtain ⟨f, r, rfl⟩ := hj
    have hst : s = C.st f r := hs.1 r rfl
    have hm := C.ev f r e j1 he hw
    rw [← hst] at hm
    have ih := ih fun e he => hp e (.tail _ he)
    cases ho : C.ofEv e with
    | none =>
      rw [ho] at hm
      obtain ⟨l, envs, s', h1, h2, h3, h4, h5⟩ := ih s hm
      refine ⟨l, envs, s', h1, ?_, ?_, h4, ?_⟩
      · rw [h2]; unfold evs; rw [List.filterMap_cons_none ho]
      · rw [h3, List.filterMap_cons_none ho]
      · intro r' hr' e' he'
        cases hr'
        cases l with
        | nil => cases he'
        | cons a l =>
          cases he'
          cases h1 with
          | cons => exact hst
    | some t =>
      obtain ⟨op, env, o⟩ := t
      rw [ho] at hm
      obtain ⟨l, envs, s', h1, h2, h3, h4, _⟩ := ih _ hm.2
      refine ⟨(s, op, o) :: l, env :: envs, s', .cons hm.1 h1, ?_, ?_, h4, ?_⟩
      · unfold evs obs at *
        rw [List.filterMap_cons_some ho, List.map_cons, List.map_cons, h2]
      · rw [h3, List.filterMap_cons_some ho, List.map_cons]
      · intro r' hr' e' he'
        cases hr'
        cases he'
        exact hst

/-- The trace of a boot behind power-up. -/
theorem traceBoot {j j' : J} {es : List Ev} (h : Trace x j es j') (hp : ∀ e ∈ es, e.who ≠ .power ∧ BootEv e) :
    ∀ s, C.wk j s → ∃ l envs s', Steps C.step s l envs s' ∧ obs l = C.evs es ∧
      envs = (es.filterMap C.ofEv).map (·.2.1) ∧ C.wk j' s' ∧ (C.evs es ≠ [] → C.View j' s') := by
  induction h with
  | nil j => exact fun s hs => ⟨[], [], s, .nil _, rfl, rfl, hs, fun h => absurd rfl h⟩
  | @cons j j1 j2 e es he ht ih =>
    intro s hs
    have hw := hp e (.head _)
    have hm := C.wk_boot j e j1 s he hw.1 hw.2 hs
    have ih := ih fun e he => hp e (.tail _ he)
    cases ho : C.ofEv e with
    | none =>
      rw [ho] at hm
      obtain ⟨l, envs, s', h1, h2, h3, h4, h5⟩ := ih s hm.1
      refine ⟨l, envs, s', h1, ?_, ?_, h4, ?_⟩
      · rw [h2]; unfold evs; rw [List.filterMap_cons_none ho]
      · rw [h3, List.filterMap_cons_none ho]
      · intro h
        refine h5 fun h' => h ?_
        unfold evs at *
        rw [List.filterMap_cons_none ho, h']
    | some t =>
      obtain ⟨op, env, o⟩ := t
      rw [ho] at hm
      obtain ⟨l, envs, s', h1, h2, h3, h4, h5⟩ := ih _ hm.2.1
      refine ⟨(s, op, o) :: l, env :: envs, s', .cons hm.1 h1, ?_, ?_, h4, fun _ => ?_⟩
      · unfold evs obs at *
        rw [List.filterMap_cons_some ho, List.map_cons, List.map_cons, h2]
      · rw [h3, List.filterMap_cons_some ho, List.map_cons]
      · obtain ⟨l2, envs2, s2, g1, g2, g3, g4, _⟩ := C.trace ht (fun e he => (hp e (.tail _ he)).1) _ (hm.2.2 rfl)
        have : l2 = l ∧ s2 = s' := by
          have : ∀ {s l envs s1 l2 envs2 s2}, Steps C.step s l envs s1 → Steps C.step s l2 envs2 s2 → envs = envs2 →
              obs l = obs l2 → l2 = l ∧ s2 = s1 := by
            intro s l envs s1 l2 envs2 s2 h
            induction h generalizing l2 envs2 s2 with
            | nil =>
              intro h' he ho
              cases h' with
              | nil => exact ⟨rfl, rfl⟩
              | cons => cases he
            | cons ho' _ ih =>
              intro h' he ho
              cases h' with
              | nil => cases he
              | cons ho2 h2 =>
                cases he
                have e1 := (List.cons.inj ho).1
                have e2 := (List.cons.inj ho).2
                cases e1
                obtain ⟨rfl, rfl⟩ := ih h2 rfl e2
                exact ⟨rfl, rfl⟩
          exact this h1 g1 (h3.trans g3.symm) (h2.trans g2.symm)
        rw [← this.2]
        exact g4

end Comp

/-- The Pgp events. -/
def pgpEv : Ev → Option (Pgp.Op × Env × Pgp.Out)
  | .pgp op env o => some (op, env, o)
  | _ => none

def pgpComp (x : Ext) : Comp x where
  σ := Pgp.St
  ο := Pgp.Op
  ω := Pgp.Out
  step := Pgp.step x.pgp
  st f r := ⟨f.others.pgp, some r.others.pgp⟩
  off f s := s.flash = f.others.pgp
  wk j s := s.flash = j.1.others.pgp
  ofEv := pgpEv
  who := .pgp
  st_off _ _ := rfl
  st_rnd _ _ _ := rfl
  ofEv_who e h := by cases e <;> first | exact .inl rfl | cases h
  who_ofEv e h := by cases e <;> first | rfl | cases h
  who_mem := by decide
  wk_off _ _ h := h
  ev f r e j h hp := by
    cases h with
    | power => exact absurd rfl hp
    | pgp _ _ op env s o h =>
      show (Pgp.step x.pgp _ op env).2 = o ∧ _
      rw [h]
      refine ⟨rfl, fun r' hr => ?_, rfl⟩
      cases hs : s.ram with
      | none => have hr : s.ram.map _ = some r' := hr; rw [hs] at hr; cases hr
      | some q =>
        have hr : s.ram.map _ = some r' := hr
        rw [hs] at hr
        cases hr
        show s = ⟨_, some q⟩
        rw [← hs]
        rfl
    | piv _ _ op env s o h =>
      refine ⟨fun r' hr => ?_, rfl⟩
      have hr : s.ram.map _ = some r' := hr
      cases hs : s.ram with
      | none => rw [hs] at hr; cases hr
      | some q => rw [hs] at hr; cases hr; rfl
    | oath _ _ op env s o h =>
      refine ⟨fun r' hr => ?_, rfl⟩
      have hr : (if o = .cut then none else some _) = some r' := hr
      by_cases ho : o = .cut
      · rw [if_pos ho] at hr; cases hr
      · rw [if_neg ho] at hr; cases hr; rfl
    | ctap _ _ op env s o h =>
      refine ⟨fun r' hr => ?_, rfl⟩
      have hr : (if o = .cut then none else some _) = some r' := hr
      by_cases ho : o = .cut
      · rw [if_pos ho] at hr; cases hr
      · rw [if_neg ho] at hr; cases hr; rfl
    | ndef _ _ op env s o h =>
      refine ⟨fun r' hr => ?_, rfl⟩
      have hr : s.ram.map _ = some r' := hr
      cases hs : s.ram with
      | none => rw [hs] at hr; cases hr
      | some q => rw [hs] at hr; cases hr; rfl
    | adm _ f' _ o' hf hn hr =>
      refine ⟨fun r' h => ?_, ?_⟩
      · show (⟨f.others.pgp, some r.others.pgp⟩ : Pgp.St) = ⟨f'.others.pgp, some r'.others.pgp⟩
        rw [(hr r' h).2.1, hf]
      · show f.others.pgp = f'.others.pgp
        rw [hf]
  wk_power j r env j' s h hs := by
    cases h
    exact hs
  wk_boot j e j' s h hp hb hs := by
    cases h with
    | power => exact absurd rfl hp
    | pgp f r op env s' o h =>
      obtain rfl := hb
      have e1 : Pgp.step x.pgp ⟨f.others.pgp, some r.others.pgp⟩ (.boot) env =
        Pgp.exec (Pgp.installOp false) f.others.pgp Pgp.Ram.init env := rfl
      have e2 : Pgp.step x.pgp s (.boot) env = Pgp.exec (Pgp.installOp false) s.flash Pgp.Ram.init env := rfl
      have hs : s.flash = _ := hs
      rw [hs] at e2
      have e3 := e2.trans (e1.symm.trans h)
      show (Pgp.step x.pgp s (.boot) env).2 = o ∧ _
      rw [e3]
      refine ⟨rfl, rfl, fun _ => ⟨fun r' hr => ?_, rfl⟩⟩
      have hr : s'.ram.map _ = some r' := hr
      cases hs' : s'.ram with
      | none => rw [hs'] at hr; cases hr
      | some q =>
        rw [hs'] at hr
        cases hr
        show s' = ⟨_, some q⟩
        rw [← hs']
        rfl
    | adm _ f' _ o' hf hn hr =>
      refine ⟨?_, fun h => by cases h⟩
      show s.flash = f'.others.pgp
      rw [hf]
      exact hs
    | piv | oath | ctap | ndef => exact ⟨hs, fun h => by cases h⟩

/-- The Piv events. -/
def pivEv : Ev → Option (Piv.Op × Env × Piv.Out)
  | .piv op env o => some (op, env, o)
  | _ => none

def pivComp (x : Ext) : Comp x where
  σ := Piv.St
  ο := Piv.Op
  ω := Piv.Out
  step := Piv.step x.piv
  st f r := ⟨f.others.piv, some r.others.piv⟩
  off f s := s.flash = f.others.piv
  wk j s := s.flash = j.1.others.piv
  ofEv := pivEv
  who := .piv
  st_off _ _ := rfl
  st_rnd _ _ _ := rfl
  ofEv_who e h := by cases e <;> first | exact .inl rfl | cases h
  who_ofEv e h := by cases e <;> first | rfl | cases h
  who_mem := by decide
  wk_off _ _ h := h
  ev f r e j h hp := by
    cases h with
    | power => exact absurd rfl hp
    | piv _ _ op env s o h =>
      show (Piv.step x.piv _ op env).2 = o ∧ _
      rw [h]
      refine ⟨rfl, fun r' hr => ?_, rfl⟩
      cases hs : s.ram with
      | none => have hr : s.ram.map _ = some r' := hr; rw [hs] at hr; cases hr
      | some q =>
        have hr : s.ram.map _ = some r' := hr
        rw [hs] at hr
        cases hr
        show s = ⟨_, some q⟩
        rw [← hs]
        rfl
    | pgp _ _ op env s o h =>
      refine ⟨fun r' hr => ?_, rfl⟩
      have hr : s.ram.map _ = some r' := hr
      cases hs : s.ram with
      | none => rw [hs] at hr; cases hr
      | some q => rw [hs] at hr; cases hr; rfl
    | oath _ _ op env s o h =>
      refine ⟨fun r' hr => ?_, rfl⟩
      have hr : (if o = .cut then none else some _) = some r' := hr
      by_cases ho : o = .cut
      · rw [if_pos ho] at hr; cases hr
      · rw [if_neg ho] at hr; cases hr; rfl
    | ctap _ _ op env s o h =>
      refine ⟨fun r' hr => ?_, rfl⟩
      have hr : (if o = .cut then none else some _) = some r' := hr
      by_cases ho : o = .cut
      · rw [if_pos ho] at hr; cases hr
      · rw [if_neg ho] at hr; cases hr; rfl
    | ndef _ _ op env s o h =>
      refine ⟨fun r' hr => ?_, rfl⟩
      have hr : s.ram.map _ = some r' := hr
      cases hs : s.ram with
      | none => rw [hs] at hr; cases hr
      | some q => rw [hs] at hr; cases hr; rfl
    | adm _ f' _ o' hf hn hr =>
      refine ⟨fun r' h => ?_, ?_⟩
      · show (⟨f.others.piv, some r.others.piv⟩ : Piv.St) = ⟨f'.others.piv, some r'.others.piv⟩
        rw [(hr r' h).2.2.1, hf]
      · show f.others.piv = f'.others.piv
        rw [hf]
  wk_power j r env j' s h hs := by
    cases h
    exact hs
  wk_boot j e j' s h hp hb hs := by
    cases h with
    | power => exact absurd rfl hp
    | piv f r op env s' o h =>
      obtain ⟨rnd, rfl⟩ := hb
      have e1 : Piv.step x.piv ⟨f.others.piv, some r.others.piv⟩ (.boot rnd) env =
        Piv.exec (Piv.installOp false rnd) f.others.piv Piv.Ram.init env := rfl
      have e2 : Piv.step x.piv s (.boot rnd) env = Piv.exec (Piv.installOp false rnd) s.flash Piv.Ram.init env := rfl
      have hs : s.flash = _ := hs
      rw [hs] at e2
      have e3 := e2.trans (e1.symm.trans h)
      show (Piv.step x.piv s (.boot rnd) env).2 = o ∧ _
      rw [e3]
      refine ⟨rfl, rfl, fun _ => ⟨fun r' hr => ?_, rfl⟩⟩
      have hr : s'.ram.map _ = some r' := hr
      cases hs' : s'.ram with
      | none => rw [hs'] at hr; cases hr
      | some q =>
        rw [hs'] at hr
        cases hr
        show s' = ⟨_, some q⟩
        rw [← hs']
        rfl
    | adm _ f' _ o' hf hn hr =>
      refine ⟨?_, fun h => by cases h⟩
      show s.flash = f'.others.piv
      rw [hf]
      exact hs
    | pgp | oath | ctap | ndef => exact ⟨hs, fun h => by cases h⟩

/-- The Ndef events. -/
def ndefEv : Ev → Option (Ndef.Op × Env × Ndef.Out)
  | .ndef op env o => some (op, env, o)
  | _ => none

def ndefComp (x : Ext) : Comp x where
  σ := Ndef.St
  ο := Ndef.Op
  ω := Ndef.Out
  step := Ndef.step
  st f r := ⟨f.ndef, some r.ndef⟩
  off f s := s.flash = f.ndef
  wk j s := s.flash = j.1.ndef
  ofEv := ndefEv
  who := .ndef
  st_off _ _ := rfl
  st_rnd _ _ _ := rfl
  ofEv_who e h := by cases e <;> first | exact .inl rfl | cases h
  who_ofEv e h := by cases e <;> first | rfl | cases h
  who_mem := by decide
  wk_off _ _ h := h
  ev f r e j h hp := by
    cases h with
    | power => exact absurd rfl hp
    | ndef _ _ op env s o h =>
      show (Ndef.step _ op env).2 = o ∧ _
      rw [h]
      refine ⟨rfl, fun r' hr => ?_, rfl⟩
      cases hs : s.ram with
      | none => have hr : s.ram.map _ = some r' := hr; rw [hs] at hr; cases hr
      | some q =>
        have hr : s.ram.map _ = some r' := hr
        rw [hs] at hr
        cases hr
        show s = ⟨_, some q⟩
        rw [← hs]
        rfl
    | pgp _ _ op env s o h =>
      refine ⟨fun r' hr => ?_, rfl⟩
      have hr : s.ram.map _ = some r' := hr
      cases hs : s.ram with
      | none => rw [hs] at hr; cases hr
      | some q => rw [hs] at hr; cases hr; rfl
    | piv _ _ op env s o h =>
      refine ⟨fun r' hr => ?_, rfl⟩
      have hr : s.ram.map _ = some r' := hr
      cases hs : s.ram with
      | none => rw [hs] at hr; cases hr
      | some q => rw [hs] at hr; cases hr; rfl
    | oath _ _ op env s o h =>
      refine ⟨fun r' hr => ?_, rfl⟩
      have hr : (if o = .cut then none else some _) = some r' := hr
      by_cases ho : o = .cut
      · rw [if_pos ho] at hr; cases hr
      · rw [if_neg ho] at hr; cases hr; rfl
    | ctap _ _ op env s o h =>
      refine ⟨fun r' hr => ?_, rfl⟩
      have hr : (if o = .cut then none else some _) = some r' := hr
      by_cases ho : o = .cut
      · rw [if_pos ho] at hr; cases hr
      · rw [if_neg ho] at hr; cases hr; rfl
    | adm _ f' _ o' hf hn hr =>
      refine ⟨fun r' h => ?_, ?_⟩
      · show (⟨f.ndef, some r.ndef⟩ : Ndef.St) = ⟨f'.ndef, some r'.ndef⟩
        rw [(hr r' h).1, hn]
      · show f.ndef = f'.ndef
        rw [hn]
  wk_power j r env j' s h hs := by
    cases h
    exact hs
  wk_boot j e j' s h hp hb hs := by
    cases h with
    | power => exact absurd rfl hp
    | ndef f r op env s' o h =>
      obtain rfl := hb
      have e1 : Ndef.step ⟨f.ndef, some r.ndef⟩ (.boot) env =
        Ndef.exec (Ndef.install false) f.ndef Ndef.Ram.init env := rfl
      have e2 : Ndef.step s (.boot) env = Ndef.exec (Ndef.install false) s.flash Ndef.Ram.init env := rfl
      have hs : s.flash = _ := hs
      rw [hs] at e2
      have e3 := e2.trans (e1.symm.trans h)
      show (Ndef.step s (.boot) env).2 = o ∧ _
      rw [e3]
      refine ⟨rfl, rfl, fun _ => ⟨fun r' hr => ?_, rfl⟩⟩
      have hr : s'.ram.map _ = some r' := hr
      cases hs' : s'.ram with
      | none => rw [hs'] at hr; cases hr
      | some q =>
        rw [hs'] at hr
        cases hr
        show s' = ⟨_, some q⟩
        rw [← hs']
        rfl
    | adm _ f' _ o' hf hn hr =>
      refine ⟨?_, fun h => by cases h⟩
      show s.flash = f'.ndef
      rw [hn]
      exact hs
    | pgp | piv | oath | ctap => exact ⟨hs, fun h => by cases h⟩

/-- The Oath events. -/
def oathEv : Ev → Option (Oath.Op × Env × Oath.Out)
  | .oath op env o => some (op, env, o)
  | .power _ env => some (.boot, env, .none)
  | _ => none

theorem oath_ev (x : Ext) (f : Flash) (r : Ram) (e : Ev) (j : J) (h : EvStep x (f, some r) e j) (hp : e.who ≠ .power) :
    Moves (Oath.step x.oath) (fun s => (∀ r', j.2 = some r' → s = ⟨j.1.others.oath, r'.others.oath⟩) ∧ s.flash = j.1.others.oath)
      (⟨f.others.oath, r.others.oath⟩ : Oath.St) (oathEv e) := by
  cases h with
  | power => exact absurd rfl hp
  | oath _ _ op env s o h =>
    show (Oath.step x.oath _ op env).2 = o ∧ _
    rw [h]
    refine ⟨rfl, fun r' hr => ?_, rfl⟩
    have hr : (if o = .cut then none else some _) = some r' := hr
    by_cases ho : o = .cut
    · rw [if_pos ho] at hr; cases hr
    · rw [if_neg ho] at hr; cases hr; rfl
  | pgp _ _ op env s o h =>
    refine ⟨fun r' hr => ?_, rfl⟩
    have hr : s.ram.map _ = some r' := hr
    cases hs : s.ram with
    | none => rw [hs] at hr; cases hr
    | some q => rw [hs] at hr; cases hr; rfl
  | piv _ _ op env s o h =>
    refine ⟨fun r' hr => ?_, rfl⟩
    have hr : s.ram.map _ = some r' := hr
    cases hs : s.ram with
    | none => rw [hs] at hr; cases hr
    | some q => rw [hs] at hr; cases hr; rfl
  | ctap _ _ op env s o h =>
    refine ⟨fun r' hr => ?_, rfl⟩
    have hr : (if o = .cut then none else some _) = some r' := hr
    by_cases ho : o = .cut
    · rw [if_pos ho] at hr; cases hr
    · rw [if_neg ho] at hr; cases hr; rfl
  | ndef _ _ op env s o h =>
    refine ⟨fun r' hr => ?_, rfl⟩
    have hr : s.ram.map _ = some r' := hr
    cases hs : s.ram with
    | none => rw [hs] at hr; cases hr
    | some q => rw [hs] at hr; cases hr; rfl
  | adm _ f' _ o' hf hn hr =>
    refine ⟨fun r' h => ?_, ?_⟩
    · show (⟨f.others.oath, r.others.oath⟩ : Oath.St) = ⟨f'.others.oath, r'.others.oath⟩
      rw [(hr r' h).2.2.2.1, hf]
    · show f.others.oath = f'.others.oath
      rw [hf]

/-- The Ctap events. -/
def ctapEv : Ev → Option (Ctap.Op × Env × Ctap.Out)
  | .ctap op env o => some (op, env, o)
  | _ => none

theorem ctap_ev (x : Ext) (f : Flash) (r : Ram) (e : Ev) (j : J) (h : EvStep x (f, some r) e j) (hp : e.who ≠ .power) :
    Moves (Ctap.step x.ctap) (fun s => (∀ r', j.2 = some r' → s = ⟨j.1.others.ctap, r'.others.ctap⟩) ∧ s.flash = j.1.others.ctap)
      (⟨f.others.ctap, r.others.ctap⟩ : Ctap.St) (ctapEv e) := by
  cases h with
  | power => exact absurd rfl hp
  | ctap _ _ op env s o h =>
    show (Ctap.step x.ctap _ op env).2 = o ∧ _
    rw [h]
    refine ⟨rfl, fun r' hr => ?_, rfl⟩
    have hr : (if o = .cut then none else some _) = some r' := hr
    by_cases ho : o = .cut
    · rw [if_pos ho] at hr; cases hr
    · rw [if_neg ho] at hr; cases hr; rfl
  | pgp _ _ op env s o h =>
    refine ⟨fun r' hr => ?_, rfl⟩
    have hr : s.ram.map _ = some r' := hr
    cases hs : s.ram with
    | none => rw [hs] at hr; cases hr
    | some q => rw [hs] at hr; cases hr; rfl
  | piv _ _ op env s o h =>
    refine ⟨fun r' hr => ?_, rfl⟩
    have hr : s.ram.map _ = some r' := hr
    cases hs : s.ram with
    | none => rw [hs] at hr; cases hr
    | some q => rw [hs] at hr; cases hr; rfl
  | oath _ _ op env s o h =>
    refine ⟨fun r' hr => ?_, rfl⟩
    have hr : (if o = .cut then none else some _) = some r' := hr
    by_cases ho : o = .cut
    · rw [if_pos ho] at hr; cases hr
    · rw [if_neg ho] at hr; cases hr; rfl
  | ndef _ _ op env s o h =>
    refine ⟨fun r' hr => ?_, rfl⟩
    have hr : s.ram.map _ = some r' := hr
    cases hs : s.ram with
    | none => rw [hs] at hr; cases hr
    | some q => rw [hs] at hr; cases hr; rfl
  | adm _ f' _ o' hf hn hr =>
    refine ⟨fun r' h => ?_, ?_⟩
    · show (⟨f.others.ctap, r.others.ctap⟩ : Ctap.St) = ⟨f'.others.ctap, r'.others.ctap⟩
      rw [(hr r' h).2.2.2.2, hf]
    · show f.others.ctap = f'.others.ctap
      rw [hf]

def oathComp (x : Ext) : Comp x where
  σ := Oath.St
  ο := Oath.Op
  ω := Oath.Out
  step := Oath.step x.oath
  st f r := ⟨f.others.oath, r.others.oath⟩
  off f s := s.flash = f.others.oath
  wk j s := (∀ r', j.2 = some r' → s = ⟨j.1.others.oath, r'.others.oath⟩) ∧ s.flash = j.1.others.oath
  ofEv := oathEv
  who := .oath
  st_off _ _ := rfl
  st_rnd _ _ _ := rfl
  ofEv_who e h := by cases e <;> first | exact .inl rfl | exact .inr rfl | cases h
  who_ofEv e h := by cases e <;> first | rfl | cases h
  who_mem := by decide
  wk_off _ _ h := h.2
  ev f r e j h hp := oath_ev x f r e j h hp
  wk_power j r env j' s h hs := by
    cases h
    refine ⟨rfl, fun r' hr => ?_, hs⟩
    cases hr
    show (⟨s.flash, Oath.Ram.init⟩ : Oath.St) = _
    rw [show s.flash = _ from hs]
    rfl
  wk_boot j e j' s h hp hb hs := by
    have hj : ∃ f r, j = (f, some r) := by
      cases h with
      | power => exact absurd rfl hp
      | pgp f r | piv f r | oath f r | ctap f r | ndef f r | adm f _ r => exact ⟨f, r, rfl⟩
    obtain ⟨f, r, rfl⟩ := hj
    have h1 := oath_ev x f r e j' h hp
    rw [← hs.1 r rfl] at h1
    cases ho : oathEv e with
    | none => rw [ho] at h1; exact ⟨h1, fun h => by cases h⟩
    | some t => rw [ho] at h1; exact ⟨h1.1, h1.2, fun _ => h1.2⟩

def ctapComp (x : Ext) : Comp x where
  σ := Ctap.St
  ο := Ctap.Op
  ω := Ctap.Out
  step := Ctap.step x.ctap
  st f r := ⟨f.others.ctap, r.others.ctap⟩
  off f s := s.flash = f.others.ctap
  wk j s := s.flash = j.1.others.ctap
  ofEv := ctapEv
  who := .ctap
  st_off _ _ := rfl
  st_rnd _ _ _ := rfl
  ofEv_who e h := by cases e <;> first | exact .inl rfl | cases h
  who_ofEv e h := by cases e <;> first | rfl | cases h
  who_mem := by decide
  wk_off _ _ h := h
  ev f r e j h hp := ctap_ev x f r e j h hp
  wk_power j r env j' s h hs := by
    cases h
    exact hs
  wk_boot j e j' s h hp hb hs := by
    cases h with
    | power => exact absurd rfl hp
    | ctap f r op env s' o h =>
      obtain ⟨i, rfl⟩ := hb
      have e1 : Ctap.step x.ctap ⟨f.others.ctap, r.others.ctap⟩ (.powerOn i) env =
        Ctap.exec (Ctap.install i false) (fun _ => .done) ⟨f.others.ctap, Ctap.Ram.init⟩ env := rfl
      have e2 : Ctap.step x.ctap s (.powerOn i) env =
        Ctap.exec (Ctap.install i false) (fun _ => .done) ⟨s.flash, Ctap.Ram.init⟩ env := rfl
      have hs : s.flash = _ := hs
      rw [hs] at e2
      have e3 := e2.trans (e1.symm.trans h)
      show (Ctap.step x.ctap s (.powerOn i) env).2 = o ∧ _
      rw [e3]
      refine ⟨rfl, rfl, fun _ => ⟨fun r' hr => ?_, rfl⟩⟩
      have hr : (if o = .cut then none else some _) = some r' := hr
      by_cases ho : o = .cut
      · rw [if_pos ho] at hr; cases hr
      · rw [if_neg ho] at hr; cases hr; rfl
    | adm _ f' _ o' hf hn hr =>
      refine ⟨?_, fun h => by cases h⟩
      show s.flash = f'.others.ctap
      rw [hf]
      exact hs
    | pgp | piv | oath | ndef => exact ⟨hs, fun h => by cases h⟩

end Verif.Card
