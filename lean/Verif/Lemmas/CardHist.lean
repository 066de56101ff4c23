import Verif.Lemmas.CardSeen
/-
The histories of the applets behind a history of the card.
-/
namespace Verif.Card
open Apdu (Capdu Rapdu Applet Chain PivState)
open Spec.Card

variable {x : Ext}

theorem Comp.evs_len (C : Comp x) {es : List Ev} (h : ∀ e ∈ es, e.who ≠ .power) :
    (C.evs es).length = (whos es).count C.who := by
  induction es with
  | nil => rfl
  | cons e es ih =>
    have ih := ih fun e he => h e (.tail _ he)
    have hp := h e (.head _)
    have hmem := C.who_mem
    have hne : C.who ≠ .adm := by
      intro h; rw [h] at hmem; revert hmem; decide
    unfold Comp.evs whos at *
    by_cases hw : e.who = C.who
    · have ho := C.who_ofEv e hw
      obtain ⟨t, ht⟩ := Option.isSome_iff_exists.mp ho
      rw [List.filterMap_cons_some ht, List.map_cons, List.map_cons, List.length_cons, ih, hw,
        List.filter_cons_of_pos (by simpa using hne), List.count_cons_self]
    · have ho : C.ofEv e = none := by
        cases ho : C.ofEv e with
        | none => rfl
        | some t =>
          rcases C.ofEv_who e (by rw [ho]; rfl) with h | h
          · exact absurd h hw
          · exact absurd h hp
      rw [List.filterMap_cons_none ho, List.map_cons, ih]
      by_cases ha : e.who = .adm
      · rw [List.filter_cons_of_neg (by simpa using ha)]
      · rw [List.filter_cons_of_pos (by simpa using ha), List.count_cons_of_ne hw]

theorem once_of {ο ω : Type} {P : ο → Prop} {b : Bool} {l : List (ο × ω)} (h1 : l.length ≤ 1)
    (h2 : b = false → l.length = 1) (h3 : ∀ e ∈ l, P e.1) : once P b l := by
  match l with
  | [] =>
    refine .inl ⟨rfl, ?_⟩
    cases b with
    | true => rfl
    | false => cases h2 rfl
  | [e] => exact .inr ⟨e.1, e.2, rfl, h3 e (.head _)⟩
  | _ :: _ :: _ => simp at h1

theorem Comp.evs_mem (C : Comp x) {es : List Ev} {p : C.ο × C.ω} (h : p ∈ C.evs es) :
    ∃ e ∈ es, ∃ env, C.ofEv e = some (p.1, env, p.2) := by
  obtain ⟨t, ht, rfl⟩ := List.mem_map.mp h
  obtain ⟨e, he, ho⟩ := List.mem_filterMap.mp ht
  exact ⟨e, he, _, ho⟩

theorem pgp_fits : Fits (pgpComp x) (pgpFace) where
  st _ _ := rfl
  uses e op env env' o h hu := by
    cases e with
    | pgp => cases h; exact hu
    | power | piv | oath | ctap | ndef | adm => cases h
  deselect _ := rfl
  des1 := Nat.le_refl 1
  notAdmin h := by cases h
  cmd i r c ans env es h := by
    have h : es = _ := h
    rw [h]
    rfl
  cmdRnd i r q c ans l h := h
  other i r a c ans env es h1 h2 h := by
    cases a with
    | admin => exact absurd rfl h2
    | openpgp => exact absurd rfl h1
    | piv =>
      have h : es = _ := h
      rw [h]
      rfl
    | oath =>
      have h : es = _ := h
      rw [h]
      rfl
    | ndef =>
      have h : es = _ := h
      rw [h]
      rfl
    | fido =>
      unfold CallEv at h
      dsimp only at h
      cases hq : fidoReq x r.others.ctap c with
      | plain p => rw [hq] at h; rw [h.1]; rfl
      | cbor q => rw [hq] at h; obtain ⟨o, rfl, h⟩ := h; rfl
      | u2f q => rw [hq] at h; obtain ⟨o, rfl, h⟩ := h; rfl
  admin c e op env o h ho := by
    cases e with
    | pgp => cases ho; exact h
    | power | piv | oath | ctap | ndef | adm => cases ho
  boot r env es b h1 h2 h3 := by
    have hl := (pgpComp x).evs_len (es := es) fun e he => (h1 e he).2
    have e0 : (pgpComp x).evs (.power r env :: es) = (pgpComp x).evs es := rfl
    rw [e0]
    refine once_of ?_ (fun hb => ?_) fun p hp => ?_
    · rw [hl]
      exact h2.sublist.count_le _
    · rw [hl, h3 hb]
      rfl
    · obtain ⟨e, he, env', ho⟩ := (pgpComp x).evs_mem hp
      have hb := (h1 e he).1
      cases e with
      | pgp => cases ho; exact hb
      | power | piv | oath | ctap | ndef | adm => cases ho
  touch long env o h hh := rfl
  cbor q i env o h hh := rfl
  u2f q i env o h hh := rfl

theorem piv_fits : Fits (pivComp x) (pivFace) where
  st _ _ := rfl
  uses e op env env' o h hu := by
    cases e with
    | piv => cases h; exact hu
    | power | pgp | oath | ctap | ndef | adm => cases h
  deselect _ := rfl
  des1 := Nat.le_refl 1
  notAdmin h := by cases h
  cmd i r c ans env es h := by
    have h : es = _ := h
    rw [h]
    rfl
  cmdRnd i r q c ans l h := h
  other i r a c ans env es h1 h2 h := by
    cases a with
    | admin => exact absurd rfl h2
    | piv => exact absurd rfl h1
    | openpgp =>
      have h : es = _ := h
      rw [h]
      rfl
    | oath =>
      have h : es = _ := h
      rw [h]
      rfl
    | ndef =>
      have h : es = _ := h
      rw [h]
      rfl
    | fido =>
      unfold CallEv at h
      dsimp only at h
      cases hq : fidoReq x r.others.ctap c with
      | plain p => rw [hq] at h; rw [h.1]; rfl
      | cbor q => rw [hq] at h; obtain ⟨o, rfl, h⟩ := h; rfl
      | u2f q => rw [hq] at h; obtain ⟨o, rfl, h⟩ := h; rfl
  admin c e op env o h ho := by
    cases e with
    | piv => cases ho; exact h
    | power | pgp | oath | ctap | ndef | adm => cases ho
  boot r env es b h1 h2 h3 := by
    have hl := (pivComp x).evs_len (es := es) fun e he => (h1 e he).2
    have e0 : (pivComp x).evs (.power r env :: es) = (pivComp x).evs es := rfl
    rw [e0]
    refine once_of ?_ (fun hb => ?_) fun p hp => ?_
    · rw [hl]
      exact h2.sublist.count_le _
    · rw [hl, h3 hb]
      rfl
    · obtain ⟨e, he, env', ho⟩ := (pivComp x).evs_mem hp
      have hb := (h1 e he).1
      cases e with
      | piv => cases ho; exact hb
      | power | pgp | oath | ctap | ndef | adm => cases ho
  touch long env o h hh := rfl
  cbor q i env o h hh := rfl
  u2f q i env o h hh := rfl

theorem ndef_fits : Fits (ndefComp x) (ndefFace) where
  st _ _ := rfl
  uses e op env env' o h hu := by
    cases e with
    | ndef => cases h; exact hu
    | power | pgp | piv | oath | ctap | adm => cases h
  deselect _ := rfl
  des1 := Nat.le_refl 1
  notAdmin h := by cases h
  cmd i r c ans env es h := by
    have h : es = _ := h
    rw [h]
    rfl
  cmdRnd i r q c ans l h := h
  other i r a c ans env es h1 h2 h := by
    cases a with
    | admin => exact absurd rfl h2
    | ndef => exact absurd rfl h1
    | openpgp =>
      have h : es = _ := h
      rw [h]
      rfl
    | piv =>
      have h : es = _ := h
      rw [h]
      rfl
    | oath =>
      have h : es = _ := h
      rw [h]
      rfl
    | fido =>
      unfold CallEv at h
      dsimp only at h
      cases hq : fidoReq x r.others.ctap c with
      | plain p => rw [hq] at h; rw [h.1]; rfl
      | cbor q => rw [hq] at h; obtain ⟨o, rfl, h⟩ := h; rfl
      | u2f q => rw [hq] at h; obtain ⟨o, rfl, h⟩ := h; rfl
  admin c e op env o h ho := by
    cases e with
    | ndef => cases ho; exact h
    | power | pgp | piv | oath | ctap | adm => cases ho
  boot r env es b h1 h2 h3 := by
    have hl := (ndefComp x).evs_len (es := es) fun e he => (h1 e he).2
    have e0 : (ndefComp x).evs (.power r env :: es) = (ndefComp x).evs es := rfl
    rw [e0]
    refine once_of ?_ (fun hb => ?_) fun p hp => ?_
    · rw [hl]
      exact h2.sublist.count_le _
    · rw [hl, h3 hb]
      rfl
    · obtain ⟨e, he, env', ho⟩ := (ndefComp x).evs_mem hp
      have hb := (h1 e he).1
      cases e with
      | ndef => cases ho; exact hb
      | power | pgp | piv | oath | ctap | adm => cases ho
  touch long env o h hh := rfl
  cbor q i env o h hh := rfl
  u2f q i env o h hh := rfl

theorem oath_fits : Fits (oathComp x) (oathFace) where
  st _ _ := rfl
  uses e op env env' o h hu := by
    cases e with
    | oath => cases h; exact hu
    | power => cases h; exact hu
    | pgp | piv | ctap | ndef | adm => cases h
  deselect _ := rfl
  des1 := Nat.le_refl 1
  notAdmin h := by cases h
  cmd i r c ans env es h := by
    have h : es = _ := h
    rw [h]
    rfl
  cmdRnd i r q c ans l h := h
  other i r a c ans env es h1 h2 h := by
    cases a with
    | admin => exact absurd rfl h2
    | oath => exact absurd rfl h1
    | openpgp =>
      have h : es = _ := h
      rw [h]
      rfl
    | piv =>
      have h : es = _ := h
      rw [h]
      rfl
    | ndef =>
      have h : es = _ := h
      rw [h]
      rfl
    | fido =>
      unfold CallEv at h
      dsimp only at h
      cases hq : fidoReq x r.others.ctap c with
      | plain p => rw [hq] at h; rw [h.1]; rfl
      | cbor q => rw [hq] at h; obtain ⟨o, rfl, h⟩ := h; rfl
      | u2f q => rw [hq] at h; obtain ⟨o, rfl, h⟩ := h; rfl
  admin c e op env o h ho := by
    cases e with
    | oath => cases ho; exact h
    | power => exact absurd h id
    | pgp | piv | ctap | ndef | adm => cases ho
  boot r env es b h1 h2 h3 := by
    have hl := (oathComp x).evs_len (es := es) fun e he => (h1 e he).2
    refine ⟨(oathComp x).evs es, rfl, ?_, fun p hp => ?_⟩
    · exact hl ▸ h2.sublist.count_le _
    · obtain ⟨e, he, env', ho⟩ := (oathComp x).evs_mem hp
      have hb := h1 e he
      cases e with
      | oath => cases ho; exact hb.1
      | power => exact absurd rfl hb.2
      | pgp | piv | ctap | ndef | adm => cases ho
  touch long env o h hh := ⟨o, rfl, hh⟩
  cbor q i env o h hh := rfl
  u2f q i env o h hh := rfl

theorem ctap_fits : Fits (ctapComp x) (ctapFace x) where
  st _ _ := rfl
  uses e op env env' o h hu := by
    cases e with
    | ctap => cases h; exact hu
    | power | pgp | piv | oath | ndef | adm => cases h
  deselect _ := rfl
  des1 := Nat.zero_le 1
  notAdmin h := by cases h
  cmd i r c ans env es h := by
    unfold CallEv at h
    dsimp only [ctapFace] at h ⊢
    cases hq : fidoReq x r.others.ctap c with
    | plain p => rw [hq] at h; rw [h.1]; exact ⟨rfl, h.2⟩
    | cbor q => rw [hq] at h; obtain ⟨o, rfl, h⟩ := h; exact ⟨o, rfl, h⟩
    | u2f q => rw [hq] at h; obtain ⟨o, rfl, h⟩ := h; exact ⟨o, rfl, h⟩
  cmdRnd i r q c ans l h := h
  other i r a c ans env es h1 h2 h := by
    cases a with
    | admin => exact absurd rfl h2
    | fido => exact absurd rfl h1
    | openpgp =>
      have h : es = _ := h
      rw [h]
      rfl
    | piv =>
      have h : es = _ := h
      rw [h]
      rfl
    | oath =>
      have h : es = _ := h
      rw [h]
      rfl
    | ndef =>
      have h : es = _ := h
      rw [h]
      rfl
  admin c e op env o h ho := by
    cases e with
    | ctap => cases ho; exact h
    | power | pgp | piv | oath | ndef | adm => cases ho
  boot r env es b h1 h2 h3 := by
    have hl := (ctapComp x).evs_len (es := es) fun e he => (h1 e he).2
    have e0 : (ctapComp x).evs (.power r env :: es) = (ctapComp x).evs es := rfl
    rw [e0]
    refine once_of ?_ (fun hb => ?_) fun p hp => ?_
    · rw [hl]
      exact h2.sublist.count_le _
    · rw [hl, h3 hb]
      rfl
    · obtain ⟨e, he, env', ho⟩ := (ctapComp x).evs_mem hp
      have hb := (h1 e he).1
      cases e with
      | ctap => cases ho; exact hb
      | power | pgp | piv | oath | ndef | adm => cases ho
  touch long env o h hh := rfl
  cbor q i env o h hh := ⟨o, rfl, hh⟩
  u2f q i env o h hh := ⟨o, rfl, hh⟩

/-! ### Histories -/

theorem runG_append {σ ο ω : Type} {step : σ → ο → Env → σ × ω} (h h' : List (ο × Env)) (s : σ) (log : List (σ × ο × ω)) :
    runG step s log (h ++ h') = runG step (runG step s log h).1 (runG step s log h).2 h' := by
  induction h generalizing s log with
  | nil => rfl
  | cons e h ih => exact ih _ _

theorem Steps.runs {σ ο ω : Type} {step : σ → ο → Env → σ × ω} {s s' : σ} {l : List (σ × ο × ω)} {es : List Env}
    (h : Steps step s l es s') (log : List (σ × ο × ω)) :
    ∃ hp, runG step s log hp = (s', l.reverse ++ log) ∧ ∀ e ∈ hp, e.2 ∈ es := by
  induction h generalizing log with
  | nil s => exact ⟨[], rfl, fun _ h => by cases h⟩
  | @cons s s' op env o l es ho _ ih =>
    obtain ⟨hp, h1, h2⟩ := ih ((s, op, o) :: log)
    refine ⟨(op, env) :: hp, ?_, ?_⟩
    · show runG step (step s op env).1 ((s, op, (step s op env).2) :: log) hp = _
      rw [ho, h1, List.reverse_cons, List.append_assoc]
      rfl
    · intro e he
      rcases List.mem_cons.mp he with rfl | he
      · exact .head _
      · exact .tail _ (h2 e he)

theorem card_run_append (x : Ext) (h h' : List (Op × Env)) (s : St) (log : List (St × Op × Out)) :
    run x s log (h ++ h') = run x (run x s log h).1 (run x s log h).2 h' := by
  induction h generalizing s log with
  | nil => rfl
  | cons e h ih => exact ih _ _

/-- The history of an applet behind a history of the card. -/
theorem Fits.history {C : Comp x} {F : Face C.σ C.ο C.ω} (h : Fits C F) (s : St) (a : C.σ) (ha : C.View (jSt s) a)
    (H : List (Op × Env)) :
    ∃ hp, (∀ e ∈ hp, ∃ e' ∈ H, Rest e'.2 e.2) ∧ C.View (jSt (run x s [] H).1) (runG C.step a [] hp).1 ∧
      Split F (run x s [] H).2 (runG C.step a [] hp).2 := by
  have key : ∀ (H : List (Op × Env)) (s : St) (L : List (St × Op × Out)) (a : C.σ) (l : List (C.σ × C.ο × C.ω)),
      C.View (jSt s) a → Split F L l →
      ∃ hp, (∀ e ∈ hp, ∃ e' ∈ H, Rest e'.2 e.2) ∧ C.View (jSt (run x s L H).1) (runG C.step a l hp).1 ∧
        Split F (run x s L H).2 (runG C.step a l hp).2 := by
    intro H
    induction H with
    | nil => exact fun s L a l hv hs => ⟨[], (fun _ h => by cases h), hv, hs⟩
    | cons e H ih =>
      intro s L a l hv hs
      obtain ⟨op, env⟩ := e
      obtain ⟨c, envs, a', g1, g2, g3, g4⟩ := h.step s op env a hv
      obtain ⟨hp, p1, p2⟩ := g1.runs l
      obtain ⟨hp', q1, q2, q3⟩ := ih _ _ a' (c.reverse ++ l) g4 (Split.cons hs g3)
      refine ⟨hp ++ hp', ?_, ?_, ?_⟩
      · intro e he
        rcases List.mem_append.mp he with he | he
        · exact ⟨(op, env), .head _, g2 _ (p2 e he)⟩
        · obtain ⟨e', he', h⟩ := q1 e he
          exact ⟨e', .tail _ he', h⟩
      · rw [runG_append, p1]; exact q2
      · rw [runG_append, p1]; exact q3
  exact key H s [] a [] ha .nil

theorem run_pgp (x : Ext) (hp : List (Pgp.Op × Env)) (s : Pgp.St) (log : List (Pgp.St × Pgp.Op × Pgp.Out)) :
    runG (Pgp.step x.pgp) s log hp = Pgp.run x.pgp s log hp := by
  induction hp generalizing s log with
  | nil => rfl
  | cons e h ih => exact ih _ _

theorem run_piv (x : Ext) (hp : List (Piv.Op × Env)) (s : Piv.St) (log : List (Piv.St × Piv.Op × Piv.Out)) :
    runG (Piv.step x.piv) s log hp = Piv.run x.piv s log hp := by
  induction hp generalizing s log with
  | nil => rfl
  | cons e h ih => exact ih _ _

theorem run_ndef (hp : List (Ndef.Op × Env)) (s : Ndef.St) (log : List (Ndef.St × Ndef.Op × Ndef.Out)) :
    ((runG Ndef.step s log hp).1, obs (runG Ndef.step s log hp).2) = Ndef.run s (obs log) hp := by
  induction hp generalizing s log with
  | nil => rfl
  | cons e h ih => exact ih _ _

theorem run_oath (x : Ext) (hp : List (Oath.Op × Env)) (s : Oath.St) (log : List (Oath.St × Oath.Op × Oath.Out)) :
    (runG (Oath.step x.oath) s log hp).1 = (Oath.run x.oath s hp).1 ∧
    (runG (Oath.step x.oath) s log hp).2.map (·.2.2) = (Oath.run x.oath s hp).2.reverse ++ log.map (·.2.2) := by
  induction hp generalizing s log with
  | nil => exact ⟨rfl, rfl⟩
  | cons e h ih =>
    obtain ⟨op, env⟩ := e
    have := ih (Oath.step x.oath s op env).1 ((s, op, (Oath.step x.oath s op env).2) :: log)
    refine ⟨this.1, this.2.trans ?_⟩
    show _ = ((Oath.step x.oath s op env).2 :: _).reverse ++ _
    rw [List.reverse_cons, List.append_assoc]
    rfl

theorem run_ctap (x : Ext) (hp : List (Ctap.Op × Env)) (s : Ctap.St) (log : List (Ctap.St × Ctap.Op × Ctap.Out)) :
    (runG (Ctap.step x.ctap) s log hp).1 = (Ctap.run x.ctap s hp).1 ∧
    (runG (Ctap.step x.ctap) s log hp).2.map (·.2.2) = (Ctap.run x.ctap s hp).2.reverse ++ log.map (·.2.2) := by
  induction hp generalizing s log with
  | nil => exact ⟨rfl, rfl⟩
  | cons e h ih =>
    obtain ⟨op, env⟩ := e
    have := ih (Ctap.step x.ctap s op env).1 ((s, op, (Ctap.step x.ctap s op env).2) :: log)
    refine ⟨this.1, this.2.trans ?_⟩
    show _ = ((Ctap.step x.ctap s op env).2 :: _).reverse ++ _
    rw [List.reverse_cons, List.append_assoc]
    rfl

end Verif.Card
