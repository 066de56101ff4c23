import Verif.Lemmas.CardComp
/-
Every step of the card as a sequence of events, and as each applet sees it.
-/
namespace Verif.Card
open Apdu (Capdu Rapdu Applet Chain PivState)
open Spec.Card

variable {x : Ext}

/-! ### Traces of steps -/

/-- `applets_poweroff`. -/
def offEvs (env : Env) : List Ev :=
  [.adm, .ndef .deselect env .none, .pgp .deselect env .none, .piv .deselect env .none, .oath .powerOff env .none]

theorem off_trace (f : Flash) (r : Ram) (env : Env) :
    Trace x (f, some r) (offEvs env) (f, some (powerOff r)) := by
  refine .cons (.adm f f r (some (Admin.poweroff r)) rfl rfl fun q hq => ?_) <|
    .cons (j' := (f, some { Admin.poweroff r with ndef := Ndef.poweroff r.ndef })) ?_ <|
    .cons (j' := (f, some { Admin.poweroff r with
      ndef := Ndef.poweroff r.ndef, others := { r.others with pgp := Pgp.poweroff r.others.pgp } })) ?_ <|
    .cons (j' := (f, some { Admin.poweroff r with
      ndef := Ndef.poweroff r.ndef,
      others := { r.others with pgp := Pgp.poweroff r.others.pgp, piv := Piv.poweroff r.others.piv } })) ?_ <|
    .cons ?_ (.nil _)
  · cases hq; exact ⟨rfl, rfl, rfl, rfl, rfl⟩
  · exact .ndef f _ .deselect env ⟨f.ndef, some (Ndef.poweroff r.ndef)⟩ .none rfl
  · exact .pgp f _ .deselect env ⟨f.others.pgp, some (Pgp.poweroff r.others.pgp)⟩ .none rfl
  · exact .piv f _ .deselect env ⟨f.others.piv, some (Piv.poweroff r.others.piv)⟩ .none rfl
  · exact .oath f _ .powerOff env ⟨f.others.oath, Oath.poweroff r.others.oath⟩ .none rfl

/-- The events of a call of an applet. -/
def CallEv (x : Ext) (i : In) (r : Ram) (a : Applet) (c : Capdu) (ans : Option Reply) (env : Env) (es : List Ev) :
    Prop :=
  match a with
  | .openpgp => es = [.pgp (.apdu { i.pgp with c := c }) env (answer .reply .cut ans)]
  | .piv => es = [.piv (.apdu { i.piv with c := c }) env (answer .reply .cut ans)]
  | .oath => es = [.oath (.apdu { i.oath with c := c }) env (answer .reply .cut ans)]
  | .ndef => es = [.ndef (.apdu { i.ndef with c := c }) env (answer .reply .cut ans)]
  | .admin => ∀ e ∈ es, AdminEv x c e
  | .fido => match fidoReq x r.others.ctap c with
    | .plain p => es = [] ∧ ans = some p
    | .cbor q => ∃ o, es = [.ctap (.cbor i.ctap q) env o] ∧
        (o = .cut ∧ ans = none ∨ o ≠ .cut ∧ ans = some (cborReply x o))
    | .u2f q => ∃ o, es = [.ctap (.u2f i.ctap q) env o] ∧
        (o = .cut ∧ ans = none ∨ o ≠ .cut ∧ ans = some (u2fReply x o))

theorem call_trace (i : In) (a : Applet) (c : Capdu) (f : Flash) (r : Ram) (env : Env) :
    ∃ es, Trace x (f, some r) es (jOf (deliver x i a c ⟨f, r, env⟩)) ∧ (∀ e ∈ es, e.who ≠ .power ∧ e.Uses env) ∧
      CallEv x i r a c (deliver x i a c ⟨f, r, env⟩).1 env es := by
  have one : ∀ {e : Ev} {P : Ev → Prop}, P e → ∀ e' ∈ [e], P e' := by
    intro e P h e' he
    cases List.mem_singleton.mp he
    exact h
  cases a with
  | openpgp =>
    obtain ⟨o, h1, h2⟩ := onPgp_ev (x := x) ⟨f, r, env⟩ (pgp_apdu (x := x) { i.pgp with c := c } r.others.pgp)
    refine ⟨_, .one h1, one ⟨(fun h => by cases h), Sh.refl _⟩, ?_⟩
    have ho : o = answer .reply .cut (onPgp (answers (Pgp.process x.pgp { i.pgp with c := c })) ⟨f, r, env⟩).1 := by
      cases h : (onPgp (answers (Pgp.process x.pgp { i.pgp with c := c })) ⟨f, r, env⟩).1 <;> rw [h] at h2 <;> exact h2
    rw [ho]
    rfl
  | piv =>
    obtain ⟨o, h1, h2⟩ := onPiv_ev (x := x) ⟨f, r, env⟩ (piv_apdu (x := x) { i.piv with c := c } r.others.piv)
    refine ⟨_, .one h1, one ⟨(fun h => by cases h), Sh.refl _⟩, ?_⟩
    have ho : o = answer .reply .cut (onPiv (answers (Piv.process x.piv { i.piv with c := c })) ⟨f, r, env⟩).1 := by
      cases h : (onPiv (answers (Piv.process x.piv { i.piv with c := c })) ⟨f, r, env⟩).1 <;> rw [h] at h2 <;> exact h2
    rw [ho]
    rfl
  | oath =>
    obtain ⟨o, h1, h2⟩ := onOath_ev (x := x) ⟨f, r, env⟩ (oath_apdu (x := x) { i.oath with c := c } r.others.oath)
    refine ⟨_, .one h1, one ⟨(fun h => by cases h), Sh.refl _⟩, ?_⟩
    have ho : o = answer .reply .cut (onOath (answers (Oath.process x.oath { i.oath with c := c })) ⟨f, r, env⟩).1 := by
      cases h : (onOath (answers (Oath.process x.oath { i.oath with c := c })) ⟨f, r, env⟩).1 <;> rw [h] at h2
      · exact h2
      · exact h2.2
    rw [ho]
    rfl
  | ndef =>
    obtain ⟨o, h1, h2⟩ := onNdef_ev (x := x) ⟨f, r, env⟩ (ndef_apdu { i.ndef with c := c } r.ndef)
    refine ⟨_, .one h1, one ⟨(fun h => by cases h), Sh.refl _⟩, ?_⟩
    have ho : o = answer .reply .cut (onNdef (answers (Ndef.process { i.ndef with c := c })) ⟨f, r, env⟩).1 := by
      cases h : (onNdef (answers (Ndef.process { i.ndef with c := c })) ⟨f, r, env⟩).1 <;> rw [h] at h2 <;> exact h2
    rw [ho]
    rfl
  | admin =>
    obtain ⟨_, _, es, h3, h4⟩ := tr_admin (x := x) { i.adm with c := c } ⟨f, r, env⟩ trivial
    refine ⟨es, ?_, fun e he => ⟨?_, (h3 e he).2⟩, fun e he => (h3 e he).1⟩
    · have : jOf (deliver x i .admin c ⟨f, r, env⟩) = jOf ((Admin.process (admExt x) { i.adm with c := c }).run ⟨f, r, env⟩) := by
        show jOf (answers _ _) = _
        unfold answers jOf
        generalize (Admin.process (admExt x) { i.adm with c := c }).run ⟨f, r, env⟩ = v
        rcases v with ⟨_ | _ | _, _⟩ <;> rfl
      rw [this]
      exact h4
    · intro h
      have h1 := (h3 e he).1
      cases e <;> first | exact h1 | cases h
  | fido =>
    have e0 : deliver x i .fido c ⟨f, r, env⟩ = onCtap (fidoM x i.ctap c) ⟨f, r, env⟩ := rfl
    have e1 : fidoM x i.ctap c ⟨f.others.ctap, r.others.ctap, env⟩ = match fidoReq x r.others.ctap c with
        | .plain r' => (some r', ⟨f.others.ctap, r.others.ctap, env⟩)
        | .cbor q => (shows (Ctap.process x.ctap i.ctap q) .resp >>= fun o => pure (cborReply x o))
            ⟨f.others.ctap, r.others.ctap, env⟩
        | .u2f q => (shows (Ctap.u2f x.ctap i.ctap q) .u2f >>= fun o => pure (u2fReply x o))
            ⟨f.others.ctap, r.others.ctap, env⟩ := rfl
    unfold CallEv
    rw [e0]
    cases hq : fidoReq x r.others.ctap c with
    | plain p =>
      rw [hq] at e1
      rw [onCtap_eq (fidoM x i.ctap c) ⟨f, r, env⟩ e1]
      exact ⟨[], .nil _, (fun _ h => by cases h), rfl, rfl⟩
    | cbor q =>
      rw [hq] at e1
      have e2 : onCtap (fidoM x i.ctap c) ⟨f, r, env⟩ =
          onCtap (shows (Ctap.process x.ctap i.ctap q) .resp >>= fun o => pure (cborReply x o)) ⟨f, r, env⟩ := by
        cases hv : (shows (Ctap.process x.ctap i.ctap q) .resp >>= fun o => pure (cborReply x o)) ⟨f.others.ctap, r.others.ctap, env⟩ with
        | mk a v =>
          have e1 := e1.trans hv
          rw [onCtap_eq _ ⟨f, r, env⟩ e1, onCtap_eq _ ⟨f, r, env⟩ hv]
      rw [e2]
      obtain ⟨o, h1, h2⟩ := onCtap_ev (x := x) ⟨f, r, env⟩ ((ctap_cbor (x := x) i.ctap q r.others.ctap).map (cborReply x))
      refine ⟨_, .one h1, one ⟨(fun h => by cases h), Sh.refl _⟩, o, rfl, ?_⟩
      cases h : (onCtap (shows (Ctap.process x.ctap i.ctap q) .resp >>= fun o => pure (cborReply x o)) ⟨f, r, env⟩).1 with
      | none => rw [h] at h2; exact .inl ⟨h2, rfl⟩
      | some a =>
        rw [h] at h2
        obtain ⟨h2, a', rfl, rfl⟩ := h2
        exact .inr ⟨h2, rfl⟩
    | u2f q =>
      rw [hq] at e1
      have e2 : onCtap (fidoM x i.ctap c) ⟨f, r, env⟩ =
          onCtap (shows (Ctap.u2f x.ctap i.ctap q) .u2f >>= fun o => pure (u2fReply x o)) ⟨f, r, env⟩ := by
        cases hv : (shows (Ctap.u2f x.ctap i.ctap q) .u2f >>= fun o => pure (u2fReply x o)) ⟨f.others.ctap, r.others.ctap, env⟩ with
        | mk a v =>
          have e1 := e1.trans hv
          rw [onCtap_eq _ ⟨f, r, env⟩ e1, onCtap_eq _ ⟨f, r, env⟩ hv]
      rw [e2]
      obtain ⟨o, h1, h2⟩ := onCtap_ev (x := x) ⟨f, r, env⟩ ((ctap_u2f (x := x) i.ctap q r.others.ctap).map (u2fReply x))
      refine ⟨_, .one h1, one ⟨(fun h => by cases h), Sh.refl _⟩, o, rfl, ?_⟩
      cases h : (onCtap (shows (Ctap.u2f x.ctap i.ctap q) .u2f >>= fun o => pure (u2fReply x o)) ⟨f, r, env⟩).1 with
      | none => rw [h] at h2; exact .inl ⟨h2, rfl⟩
      | some a =>
        rw [h] at h2
        obtain ⟨h2, a', rfl, rfl⟩ := h2
        exact .inr ⟨h2, rfl⟩

/-- Flash and RAM of the card. -/
def jSt (s : St) : J := (s.flash, s.ram.map Prod.fst)

/-- A command to the card. -/
theorem handle_trace (f : Flash) (r : Ram) (i : In) (rt : Route) (env : Env) :
    match (handle x f r i rt env).2.call with
    | none => jSt (handle x f r i rt env).1 = (f, some r)
    | some k => ∃ es, Trace x
        (f, some (let r' := if k.switch then powerOff r else r; { r' with others := { r'.others with rnd := i.rnd } }))
        es (jSt (handle x f r i rt env).1) ∧ (∀ e ∈ es, e.who ≠ .power ∧ e.Uses env) ∧
        CallEv x i (let r' := if k.switch then powerOff r else r; { r' with others := { r'.others with rnd := i.rnd } })
          k.to k.cmd k.ans env es := by
  cases rt with
  | «local» d a => rfl
  | call d switch a c chained =>
    have h := call_trace (x := x) i a c f
      (let r' := if switch then powerOff r else r; { r' with others := { r'.others with rnd := i.rnd } }) env
    unfold handle
    dsimp only at h ⊢
    generalize deliver x i a c ⟨f, _, env⟩ = v at h ⊢
    obtain ⟨o, w⟩ := v
    rcases o with _ | (⟨data, sw⟩ | u)
    · exact h
    · dsimp only
      cases finish d c chained ⟨data, UInt16.ofNat sw⟩ with
      | ok p => exact h
      | error => exact h
    · exact h

/-! ### As an applet sees it -/

/-- A face is that of a component. -/
structure Fits {x : Ext} (C : Comp x) (F : Face C.σ C.ο C.ω) : Prop where
  st : ∀ f r, F.st f r = C.st f r
  uses : ∀ e op env env' o, C.ofEv e = some (op, env', o) → e.Uses env → Rest env env'
  deselect : ∀ env, C.evs (offEvs env) = F.deselect
  des1 : F.deselect.length ≤ 1
  notAdmin : F.me ≠ .admin
  cmd : ∀ i r c ans env es, CallEv x i r F.me c ans env es → F.cmd i r c ans (C.evs es)
  cmdRnd : ∀ i r q c ans l, F.cmd i { r with others := { r.others with rnd := q } } c ans l → F.cmd i r c ans l
  other : ∀ i r a c ans env es, a ≠ F.me → a ≠ .admin → CallEv x i r a c ans env es → C.evs es = []
  admin : ∀ c e op env o, AdminEv x c e → C.ofEv e = some (op, env, o) → F.admin c op
  boot : ∀ r env es b, (∀ e ∈ es, BootEv e ∧ e.who ≠ .power) → whos es <+: [.pgp, .piv, .oath, .ctap, .ndef, .oath] →
    (b = false → whos es = [.pgp, .piv, .oath, .ctap, .ndef, .oath]) → F.boot b (C.evs (.power r env :: es))
  touch : ∀ long env o, (∀ h, (o = .cut ∧ h = .cut ∨ o ≠ .cut ∧ h = .typed o) →
    F.direct (.touch long) h (C.evs [.oath (.touch long) env o]))
  cbor : ∀ q i env o, (∀ h, (o = .cut ∧ h = .cut ∨ o ≠ .cut ∧ h = .ctap o) →
    F.direct (.cbor q i) h (C.evs [.ctap (.cbor i q) env o]))
  u2f : ∀ q i env o, (∀ h, (o = .cut ∧ h = .cut ∨ o ≠ .cut ∧ h = .ctap o) →
    F.direct (.u2f q i) h (C.evs [.ctap (.u2f i q) env o]))

namespace Fits
variable {C : Comp x} {F : Face C.σ C.ο C.ω}

theorem rest (h : Fits C F) {es : List Ev} {env : Env} (hu : ∀ e ∈ es, e.Uses env) :
    ∀ env' ∈ (es.filterMap C.ofEv).map (·.2.1), Rest env env' := by
  intro env' he
  obtain ⟨t, ht, rfl⟩ := List.mem_map.mp he
  obtain ⟨e, he, ho⟩ := List.mem_filterMap.mp ht
  exact h.uses e _ _ _ _ ho (hu e he)

theorem fromAdmin (h : Fits C F) {c : Capdu} {es : List Ev} (he : ∀ e ∈ es, AdminEv x c e) :
    ∀ p ∈ C.evs es, F.admin c p.1 := by
  intro p hp
  obtain ⟨t, ht, rfl⟩ := List.mem_map.mp hp
  obtain ⟨e, hm, ho⟩ := List.mem_filterMap.mp ht
  exact h.admin c e _ _ _ (he e hm) ho

/-- A step of the card, as the applet sees it. -/
theorem step (h : Fits C F) (s : St) (op : Op) (env : Env) (a : C.σ) (ha : C.View (jSt s) a) :
    ∃ l envs a', Steps C.step a l envs a' ∧ (∀ e ∈ envs, Rest env e) ∧
      Does F s op (Card.step x s op env).2 l ∧ C.View (jSt (Card.step x s op env).1) a' := by
  have offUses : ∀ e ∈ offEvs env, e.who ≠ .power ∧ e.Uses env := by
    intro e he
    simp only [offEvs, List.mem_cons, List.not_mem_nil, or_false] at he
    rcases he with rfl | rfl | rfl | rfl | rfl <;>
      exact ⟨(fun h => by cases h), by first | trivial | exact Sh.refl _⟩
  have hdes : ∀ {f r} {l : List (C.σ × C.ο × C.ω)}, obs l = F.deselect →
      (∀ e, l.head? = some e → e.1 = C.st f r) → ∀ e ∈ l, e.1 = F.st f r := by
    intro f r l hl hh e he
    have hlen : l.length ≤ 1 := by
      have := h.des1
      rw [← hl] at this
      unfold obs at this
      rwa [List.length_map] at this
    match l, hlen, he with
    | [e'], _, he =>
      cases List.mem_singleton.mp he
      rw [h.st]
      exact hh e rfl
  obtain ⟨f, ro⟩ := s
  cases op with
  | boot r =>
    have hb := boot_tr (x := x) ⟨f, Admin.Ram.init (Rm.init r), env⟩
      ⟨rfl, (fun _ => rfl), (fun _ => rfl), (fun _ => rfl)⟩
    obtain ⟨_, _, es, h3, h4, h5, h6⟩ := hb
    have hne : ∀ e ∈ es, e.who ≠ .power := by
      intro e he hw
      have : Who.power ∈ whos es := by
        unfold whos
        exact List.mem_filter.mpr ⟨List.mem_map.mpr ⟨e, he, hw⟩, by decide⟩
      have := h5.subset this
      revert this
      decide
    have hw := C.wk_power (f, ro.map Prod.fst) r env _ a (.power _ _ r env) ha.2
    have key : ∃ l envs a', Steps C.step a l envs a' ∧ obs l = C.evs (.power r env :: es) ∧
        envs = ((Ev.power r env :: es).filterMap C.ofEv).map (·.2.1) ∧
        C.wk (jOf (Admin.boot (admExt x) ⟨f, Admin.Ram.init (Rm.init r), env⟩)) a' ∧
        (C.evs es ≠ [] → C.View (jOf (Admin.boot (admExt x) ⟨f, Admin.Ram.init (Rm.init r), env⟩)) a') := by
      cases ho : C.ofEv (.power r env) with
      | none =>
        rw [ho] at hw
        obtain ⟨l, envs, a', g1, g2, g3, g4, g5⟩ := C.traceBoot h4 (fun e he => ⟨hne e he, (h3 e he).1⟩) a hw
        refine ⟨l, envs, a', g1, ?_, ?_, g4, g5⟩
        · rw [g2]; unfold Comp.evs; rw [List.filterMap_cons_none ho]
        · rw [g3, List.filterMap_cons_none ho]
      | some t =>
        obtain ⟨op, env', o⟩ := t
        rw [ho] at hw
        obtain ⟨l, envs, a', g1, g2, g3, g4, g5⟩ := C.traceBoot h4 (fun e he => ⟨hne e he, (h3 e he).1⟩) _ hw.2
        refine ⟨(a, op, o) :: l, env' :: envs, a', .cons hw.1 g1, ?_, ?_, g4, g5⟩
        · unfold Comp.evs obs at *
          rw [List.filterMap_cons_some ho, List.map_cons, List.map_cons, g2]
        · rw [g3, List.filterMap_cons_some ho, List.map_cons]
    obtain ⟨l, envs, a', g1, g2, g3, g4, g5⟩ := key
    refine ⟨l, envs, a', g1, ?_, ?_⟩
    · rw [g3]
      refine h.rest fun e he => ?_
      rcases List.mem_cons.mp he with rfl | he
      · exact Sh.refl _
      · exact (h3 e he).2
    · have e1 : Card.step x ⟨f, ro⟩ (.boot r) env =
          match Admin.boot (admExt x) ⟨f, Admin.Ram.init (Rm.init r), env⟩ with
          | (none, w) => (⟨w.flash, none⟩, ⟨.cut, none⟩)
          | (some _, w) => (⟨w.flash, some (w.ram, Disp.init)⟩, ⟨.none, none⟩) := by
        cases ro <;> rfl
      have hbt : ∀ b, (b = false → whos es = [.pgp, .piv, .oath, .ctap, .ndef, .oath]) → F.boot b (obs l) := by
        intro b hb
        rw [g2]
        exact h.boot r env es b (fun e he => ⟨(h3 e he).1, hne e he⟩) h5 hb
      have hdo : ∀ o, F.boot (match o.host with | .cut => true | _ => false) (obs l) → Does F ⟨f, ro⟩ (.boot r) o l := by
        intro o ho
        cases ro <;> exact ho
      rw [e1]
      cases hv : Admin.boot (admExt x) ⟨f, Admin.Ram.init (Rm.init r), env⟩ with
      | mk o w =>
        rw [hv] at g4 g5 h6
        cases o with
        | none =>
          refine ⟨hdo _ (hbt true (fun h => by cases h)), (fun r hr => by cases hr), ?_⟩
          exact C.wk_off _ _ g4
        | some u =>
          refine ⟨hdo _ (hbt false fun _ => h6 (by intro h; cases h)), g5 ?_⟩
          intro he
          have h6 := h6 (by intro h; cases h)
          have ht : C.who ∈ whos es := by rw [h6]; exact C.who_mem
          obtain ⟨e, he', hw⟩ := List.mem_map.mp (List.mem_filter.mp ht).1
          have h1 := C.who_ofEv e hw
          unfold Comp.evs at he
          have he := List.map_eq_nil_iff.mp he
          have h2 := List.filterMap_eq_nil_iff.mp he e he'
          rw [h2] at h1
          cases h1
  | power =>
    cases ro with
    | none => exact ⟨[], [], a, .nil _, (fun _ h => by cases h), rfl, ha⟩
    | some p =>
      obtain ⟨r, d⟩ := p
      obtain ⟨l, envs, a', g1, g2, g3, g4, g5⟩ :=
        C.trace (off_trace (x := x) f r env) (fun e he => (offUses e he).1) a ha
      refine ⟨l, envs, a', g1, ?_, ⟨g2.trans (h.deselect env), ?_⟩, g4⟩
      · rw [g3]; exact h.rest fun e he => (offUses e he).2
      · exact hdes (g2.trans (h.deselect env)) (g5 r rfl)
  | cbor q i =>
    cases ro with
    | none => exact ⟨[], [], a, .nil _, (fun _ h => by cases h), rfl, ha⟩
    | some p =>
      obtain ⟨r, d⟩ := p
      obtain ⟨o, h1, h2⟩ := onCtap_ev (x := x) ⟨f, r, env⟩ (ctap_cbor (x := x) i q r.others.ctap)
      obtain ⟨l, envs, a', g1, g2, g3, g4, g5⟩ :=
        C.trace (.one h1) (fun e he => by cases List.mem_singleton.mp he; intro h; cases h) a ha
      have hu : ∀ e ∈ envs, Rest env e := by
        rw [g3]
        exact h.rest fun e he => by cases List.mem_singleton.mp he; exact Sh.refl _
      have e1 : Card.step x ⟨f, some (r, d)⟩ (.cbor q i) env =
          match onCtap (shows (Ctap.process x.ctap i q) .resp) ⟨f, r, env⟩ with
          | (none, w) => (⟨w.flash, none⟩, ⟨.cut, none⟩)
          | (some o, w) => (⟨w.flash, some (w.ram, d)⟩, ⟨.ctap o, none⟩) := rfl
      refine ⟨l, envs, a', g1, hu, ?_⟩
      rw [e1]
      cases hv : onCtap (shows (Ctap.process x.ctap i q) .resp) ⟨f, r, env⟩ with
      | mk v w =>
        rw [hv] at h2 g4
        cases v with
        | none => exact ⟨⟨by rw [g2]; exact h.cbor q i env o _ (.inl ⟨h2, rfl⟩), fun e he => by rw [h.st]; exact g5 r rfl e he⟩, g4⟩
        | some b =>
          obtain ⟨h2, rfl⟩ := h2
          exact ⟨⟨by rw [g2]; exact h.cbor q i env _ _ (.inr ⟨h2, rfl⟩), fun e he => by rw [h.st]; exact g5 r rfl e he⟩, g4⟩
  | u2f q i =>
    cases ro with
    | none => exact ⟨[], [], a, .nil _, (fun _ h => by cases h), rfl, ha⟩
    | some p =>
      obtain ⟨r, d⟩ := p
      obtain ⟨o, h1, h2⟩ := onCtap_ev (x := x) ⟨f, r, env⟩ (ctap_u2f (x := x) i q r.others.ctap)
      obtain ⟨l, envs, a', g1, g2, g3, g4, g5⟩ :=
        C.trace (.one h1) (fun e he => by cases List.mem_singleton.mp he; intro h; cases h) a ha
      have hu : ∀ e ∈ envs, Rest env e := by
        rw [g3]
        exact h.rest fun e he => by cases List.mem_singleton.mp he; exact Sh.refl _
      have e1 : Card.step x ⟨f, some (r, d)⟩ (.u2f q i) env =
          match onCtap (shows (Ctap.u2f x.ctap i q) .u2f) ⟨f, r, env⟩ with
          | (none, w) => (⟨w.flash, none⟩, ⟨.cut, none⟩)
          | (some o, w) => (⟨w.flash, some (w.ram, d)⟩, ⟨.ctap o, none⟩) := rfl
      refine ⟨l, envs, a', g1, hu, ?_⟩
      rw [e1]
      cases hv : onCtap (shows (Ctap.u2f x.ctap i q) .u2f) ⟨f, r, env⟩ with
      | mk v w =>
        rw [hv] at h2 g4
        cases v with
        | none => exact ⟨⟨by rw [g2]; exact h.u2f q i env o _ (.inl ⟨h2, rfl⟩), fun e he => by rw [h.st]; exact g5 r rfl e he⟩, g4⟩
        | some b =>
          obtain ⟨h2, rfl⟩ := h2
          exact ⟨⟨by rw [g2]; exact h.u2f q i env _ _ (.inr ⟨h2, rfl⟩), fun e he => by rw [h.st]; exact g5 r rfl e he⟩, g4⟩
  | touch long =>
    cases ro with
    | none => exact ⟨[], [], a, .nil _, (fun _ h => by cases h), rfl, ha⟩
    | some p =>
      obtain ⟨r, d⟩ := p
      obtain ⟨o, h1, h2⟩ := onOath_ev (x := x) ⟨f, r, env⟩ (oath_touch (x := x) long r.others.oath)
      obtain ⟨l, envs, a', g1, g2, g3, g4, g5⟩ :=
        C.trace (.one h1) (fun e he => by cases List.mem_singleton.mp he; intro h; cases h) a ha
      have hu : ∀ e ∈ envs, Rest env e := by
        rw [g3]
        exact h.rest fun e he => by cases List.mem_singleton.mp he; exact Sh.refl _
      have e1 : Card.step x ⟨f, some (r, d)⟩ (.touch long) env =
          match onOath (Oath.handleTouch x.oath long).run ⟨f, r, env⟩ with
          | (none, w) => (⟨w.flash, none⟩, ⟨.cut, none⟩)
          | (some (.error e), w) => (⟨w.flash, some (w.ram, d)⟩, ⟨.typed (.reply e), none⟩)
          | (some (.ok a), w) => (⟨w.flash, some (w.ram, d)⟩, ⟨.typed (.typed a), none⟩) := rfl
      refine ⟨l, envs, a', g1, hu, ?_⟩
      rw [e1]
      cases hv : onOath (Oath.handleTouch x.oath long).run ⟨f, r, env⟩ with
      | mk v w =>
        rw [hv] at h2 g4
        rcases v with _ | (b | b)
        · exact ⟨⟨by rw [g2]; exact h.touch long env o _ (.inl ⟨h2, rfl⟩), fun e he => by rw [h.st]; exact g5 r rfl e he⟩, g4⟩
        · obtain ⟨h2, rfl⟩ := h2
          exact ⟨⟨by rw [g2]; exact h.touch long env _ _ (.inr ⟨h2, rfl⟩), fun e he => by rw [h.st]; exact g5 r rfl e he⟩, g4⟩
        · obtain ⟨h2, rfl⟩ := h2
          exact ⟨⟨by rw [g2]; exact h.touch long env _ _ (.inr ⟨h2, rfl⟩), fun e he => by rw [h.st]; exact g5 r rfl e he⟩, g4⟩
  | apdu c i =>
    cases ro with
    | none => exact ⟨[], [], a, .nil _, (fun _ h => by cases h), rfl, ha⟩
    | some p =>
      obtain ⟨r, d⟩ := p
      have e1 : Card.step x ⟨f, some (r, d)⟩ (.apdu c i) env = match route r.cfg.ndef d c with
          | .error _ => (⟨f, some (r, d)⟩, ⟨.ub, none⟩)
          | .ok rt => handle x f r i rt env := rfl
      rw [e1]
      cases hrt : route r.cfg.ndef d c with
      | error u => exact ⟨[], [], a, .nil _, (fun _ h => by cases h), rfl, ha⟩
      | ok rt =>
        dsimp only
        have ht := handle_trace (x := x) f r i rt env
        generalize handle x f r i rt env = v at ht ⊢
        obtain ⟨s', ⟨host, call⟩⟩ := v
        cases call with
        | none =>
          have ht : jSt s' = (f, some r) := ht
          refine ⟨[], [], a, .nil _, (fun _ h => by cases h), rfl, ?_⟩
          show C.View (jSt s') a
          rw [ht]
          exact ha
        | some k =>
          obtain ⟨es, t1, t2, t3⟩ := ht
          -- applets_poweroff
          have hd : ∃ ld envs1 a1, Steps C.step a ld envs1 a1 ∧ obs ld = (if k.switch then F.deselect else []) ∧
              (∀ e ∈ envs1, Rest env e) ∧ C.View (f, some (if k.switch then powerOff r else r)) a1 ∧
              ∀ e ∈ ld, e.1 = F.st f r := by
            cases hk : k.switch with
            | false => exact ⟨[], [], a, .nil _, rfl, (fun _ h => by cases h), ha, fun _ h => by cases h⟩
            | true =>
              obtain ⟨l, envs, a', g1, g2, g3, g4, g5⟩ :=
                C.trace (off_trace (x := x) f r env) (fun e he => (offUses e he).1) a ha
              refine ⟨l, envs, a', g1, g2.trans (h.deselect env), ?_, g4, hdes (g2.trans (h.deselect env)) (g5 r rfl)⟩
              rw [g3]; exact h.rest fun e he => (offUses e he).2
          obtain ⟨ld, envs1, a1, d1, d2, d3, d4, d5⟩ := hd
          have hv : C.View (f, some { (if k.switch then powerOff r else r) with others := { (if k.switch then powerOff r else r).others with rnd := i.rnd } }) a1 := by
            refine ⟨fun q hq => ?_, d4.2⟩
            cases hq
            rw [d4.1 (if k.switch then powerOff r else r) rfl]
            exact (C.st_rnd f (if k.switch then powerOff r else r) i.rnd).symm
          obtain ⟨l, envs, a', g1, g2, g3, g4, g5⟩ := C.trace t1 (fun e he => (t2 e he).1) a1 hv
          refine ⟨ld ++ l, envs1 ++ envs, a', d1.append g1, ?_, ⟨ld, l, rfl, d2, d5, ?_, ?_⟩, g4⟩
          · intro e he
            rcases List.mem_append.mp he with he | he
            · exact d3 e he
            · rw [g3] at he
              exact h.rest (fun e he => (t2 e he).2) e he
          · intro e he
            rw [h.st, g5 _ rfl e he]
            exact C.st_rnd f (if k.switch then powerOff r else r) i.rnd
          · by_cases hm : k.to = F.me
            · rw [if_pos hm]
              rw [hm] at t3
              rw [g2]
              exact h.cmdRnd _ _ i.rnd _ _ _ (h.cmd _ _ _ _ _ _ t3)
            · rw [if_neg hm]
              by_cases hadm : k.to = .admin
              · rw [if_pos hadm]
                rw [hadm] at t3
                intro e he
                have := h.fromAdmin t3 e.2
                rw [← g2] at this
                exact this (List.mem_map.mpr ⟨e, he, rfl⟩)
              · rw [if_neg hadm]
                have := h.other _ _ _ _ _ _ _ hm hadm t3
                rw [this] at g2
                exact List.map_eq_nil_iff.mp g2

end Fits

end Verif.Card
