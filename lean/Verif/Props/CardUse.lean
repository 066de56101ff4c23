import Verif.Props.Card
/-
When the keys of OpenPGP and PIV may be used, on the whole card.
-/
namespace Verif.Card
open Spec.Card
open Apdu (Capdu Rapdu Applet)

variable {x : Ext}

/-! ### What the applets see of one operation -/

/-- A face whose commands are single operations. -/
structure Plain {σ ο ω : Type} (F : Face σ ο ω) (mk : In → Capdu → ο) (rep : Reply → ω) (ct : ω) (isDes isBoot isFac : ο → Prop) :
    Prop where
  des : ∃ op w, F.deselect = [(op, w)] ∧ isDes op
  cmd : ∀ i r c a l, F.cmd i r c a l → l = [(mk i c, answer rep ct a)]
  admin : ∀ c op, F.admin c op → isFac op
  boot : ∀ b l, F.boot b l → once isBoot b l
  direct : ∀ op h l, F.direct op h l → l = []

namespace Plain
variable {σ ο ω : Type} {F : Face σ ο ω} {mk : In → Capdu → ο} {rep : Reply → ω} {ct : ω} {isDes isBoot isFac : ο → Prop}

/-- The operations an applet sees of one operation of the card. -/
theorem sees (hF : Plain F mk rep ct isDes isBoot isFac) {s : St} {op : Op} {o : Out} {c : List (σ × ο × ω)}
    (h : Does F s op o c) :
    ∀ e ∈ c, (∃ j k, Handed F.me (s, op, o) j k ∧ e.2 = (mk j k.cmd, answer rep ct k.ans) ∧ ∃ r, e.1 = F.st s.flash r) ∨
      isBoot e.2.1 ∨ isFac e.2.1 ∨ isDes e.2.1 := by
  intro e he
  have des : ∀ {l : List (σ × ο × ω)}, obs l = F.deselect → e ∈ l → isDes e.2.1 := by
    intro l hl he
    obtain ⟨op, w, h1, h2⟩ := hF.des
    have : e.2 ∈ obs l := List.mem_map_of_mem he
    rw [hl, h1] at this
    rcases List.mem_cons.mp this with h | h
    · rw [h]; exact h2
    · cases h
  obtain ⟨f, ro⟩ := s
  cases op with
  | boot r =>
    have h := hF.boot _ _ h
    have : e.2 ∈ obs c := List.mem_map_of_mem he
    rcases h with ⟨h, _⟩ | ⟨op', out, h, h'⟩
    · rw [h] at this; cases this
    · rw [h] at this
      rcases List.mem_cons.mp this with h | h
      · exact .inr (.inl (by rw [h]; exact h'))
      · cases h
  | apdu c0 i =>
    cases ro with
    | none => have h : c = [] := h; rw [h] at he; cases he
    | some rd =>
      obtain ⟨r, d⟩ := rd
      obtain ⟨host, call⟩ := o
      cases call with
      | none => have h : c = [] := h; rw [h] at he; cases he
      | some k =>
        obtain ⟨dl, t, rfl, hd, _, ht, h⟩ := h
        rcases List.mem_append.mp he with he | he
        · cases hk : k.switch with
          | false =>
            rw [hk] at hd
            have : dl = [] := List.map_eq_nil_iff.mp hd
            rw [this] at he; cases he
          | true => rw [hk] at hd; exact .inr (.inr (.inr (des hd he)))
        · by_cases h1 : k.to = F.me
          · rw [if_pos h1] at h
            have h := hF.cmd _ _ _ _ _ h
            have hm : e.2 ∈ obs t := List.mem_map_of_mem he
            cases t with
            | nil => cases he
            | cons e' t =>
              have ht' : t = [] := List.map_eq_nil_iff.mp (List.cons.inj h).2
              rw [ht'] at he
              rcases List.mem_cons.mp he with rfl | he
              · have h0 := ht e rfl
                exact .inl ⟨i, k, ⟨(by intro h; cases h), ⟨c0, rfl⟩, rfl, h1⟩, (List.cons.inj h).1, _, h0⟩
              · cases he
          · rw [if_neg h1] at h
            by_cases h2 : k.to = .admin
            · rw [if_pos h2] at h
              exact .inr (.inr (.inl (hF.admin _ _ (h e he))))
            · rw [if_neg h2] at h
              rw [h] at he; cases he
  | power =>
    cases ro with
    | none => have h : c = [] := h; rw [h] at he; cases he
    | some rd => exact .inr (.inr (.inr (des h.1 he)))
  | touch _ | cbor _ _ | u2f _ _ =>
    cases ro with
    | none => have h : c = [] := h; rw [h] at he; cases he
    | some rd =>
      have : c = [] := List.map_eq_nil_iff.mp (hF.direct _ _ _ h.1)
      rw [this] at he; cases he

/-- A command is the last thing an applet sees of an operation. -/
theorem gets (hF : Plain F mk rep ct isDes isBoot isFac) {s : St} {op : Op} {o : Out} {c : List (σ × ο × ω)}
    (h : Does F s op o c) {j : In} {k : Call} (hs : Handed F.me (s, op, o) j k) :
    ∃ d r, c = d ++ [(F.st s.flash r, mk j k.cmd, answer rep ct k.ans)] ∧
      (k.switch = true → ∃ e, d = [e] ∧ isDes e.2.1) ∧ (k.switch = false → d = [] ∧ ∃ dd, s.ram = some (r, dd)) := by
  obtain ⟨hon, ⟨c0, hop⟩, hc, hto⟩ := hs
  obtain ⟨f, ro⟩ := s
  obtain ⟨host, call⟩ := o
  have hop : op = .apdu c0 j := hop
  have hc : call = some k := hc
  subst hop hc
  cases ro with
  | none => exact absurd rfl hon
  | some rd =>
    obtain ⟨r, d⟩ := rd
    obtain ⟨dl, t, rfl, hd, _, ht, h⟩ := h
    rw [if_pos hto] at h
    have h := hF.cmd _ _ _ _ _ h
    cases t with
    | nil => cases h
    | cons e' t =>
      have ht' : t = [] := List.map_eq_nil_iff.mp (List.cons.inj h).2
      subst ht'
      have h0 := ht e' rfl
      obtain ⟨st, p⟩ := e'
      have h : p = _ := (List.cons.inj h).1
      subst h
      have h0 : st = _ := h0
      subst h0
      refine ⟨dl, _, rfl, fun hk => ?_, fun hk => ?_⟩
      · rw [if_pos hk] at hd
        obtain ⟨op', w, e1, e2⟩ := hF.des
        rw [e1] at hd
        cases dl with
        | nil => cases hd
        | cons e dl =>
          refine ⟨e, ?_, by rw [show e.2 = _ from (List.cons.inj hd).1]; exact e2⟩
          rw [show dl = [] from List.map_eq_nil_iff.mp (List.cons.inj hd).2]
      · rw [hk] at hd ⊢
        exact ⟨List.map_eq_nil_iff.mp hd, d, rfl⟩

/-- The applet is told when it is left. -/
theorem left (hF : Plain F mk rep ct isDes isBoot isFac) {s : St} {op : Op} {o : Out} {c : List (σ × ο × ω)}
    (h : Does F s op o c) (hon : s.ram ≠ none)
    (hl : op = .power ∨ (∃ c0 i, op = .apdu c0 i) ∧ ∃ k, o.call = some k ∧ k.switch = true) :
    ∃ e ∈ c, isDes e.2.1 := by
  have des : ∀ {l : List (σ × ο × ω)}, obs l = F.deselect → ∃ e ∈ l, isDes e.2.1 := by
    intro l hl
    obtain ⟨op', w, e1, e2⟩ := hF.des
    rw [e1] at hl
    cases l with
    | nil => cases hl
    | cons e l => exact ⟨e, .head _, by rw [show e.2 = _ from (List.cons.inj hl).1]; exact e2⟩
  obtain ⟨f, ro⟩ := s
  cases ro with
  | none => exact absurd rfl hon
  | some rd =>
    rcases hl with rfl | ⟨⟨c0, i, rfl⟩, k, hk, hsw⟩
    · exact des h.1
    · obtain ⟨host, call⟩ := o
      have hk : call = some k := hk
      subst hk
      obtain ⟨dl, t, rfl, hd, _⟩ := h
      rw [if_pos hsw] at hd
      obtain ⟨e, he, h⟩ := des hd
      exact ⟨e, List.mem_append_left _ he, h⟩

/-- The applet is told of a complete restart. -/
theorem restarted (hF : Plain F mk rep ct isDes isBoot isFac) {s : St} {r : Rnd} {o : Out} {c : List (σ × ο × ω)}
    (h : Does F s (.boot r) o c) (hc : o.host ≠ .cut) : ∃ e ∈ c, isBoot e.2.1 := by
  have h := hF.boot _ _ h
  rcases h with ⟨_, h⟩ | ⟨op', out, h, h'⟩
  · obtain ⟨host, call⟩ := o
    cases host with
    | cut => exact absurd rfl hc
    | reply | ctap | typed | none | ub => cases h
  · cases c with
    | nil => cases h
    | cons e c => exact ⟨e, .head _, by rw [show e.2 = _ from (List.cons.inj h).1]; exact h'⟩

/-- Behind a command that an applet gets on the card there is a command that it gets alone. -/
theorem use {C : Comp x} {F : Face C.σ C.ο C.ω} {mk : In → Capdu → C.ο} {rep : Reply → C.ω} {ct : C.ω}
    {isDes isBoot isFac : C.ο → Prop} (hF : Plain F mk rep ct isDes isBoot isFac) (hC : Fits C F)
    (hs : ∀ f s, F.same f s ↔ C.off f s) (s0 : St) (a : C.σ) (ha : Shares F s0 a) (H : List (Op × Env)) (op : Op) (env : Env)
    {j : In} {k : Call}
    (hk : Handed F.me ((run x s0 [] H).1, op, (step x (run x s0 [] H).1 op env).2) j k) :
    ∃ h0 env' r l', (∀ e ∈ h0, ∃ e' ∈ H ++ [(op, env)], Rest e'.2 e.2) ∧
      (runG C.step a [] h0).1 = F.st (run x s0 [] H).1.flash r ∧
      (C.step (runG C.step a [] h0).1 (mk j k.cmd) env').2 = answer rep ct k.ans ∧ Split F (run x s0 [] H).2 l' ∧
      (k.switch = true → ∃ e, isDes e.2.1 ∧ (runG C.step a [] h0).2 = e :: l') ∧
      (k.switch = false → (runG C.step a [] h0).2 = l' ∧ ∃ d, (run x s0 [] H).1.ram = some (r, d)) := by
  obtain ⟨hp, h1, h2, h3⟩ := Fits.shares hC hs s0 a ha (H ++ [(op, env)])
  rw [card_run_append] at h3
  have e1 : ∀ s L, run x s L [(op, env)] = ((step x s op env).1, (s, op, (step x s op env).2) :: L) := fun _ _ => rfl
  rw [e1] at h3
  obtain ⟨c, l', h4, h5, h6⟩ := split_cons h3
  obtain ⟨d, r, rfl, h7, h8⟩ := hF.gets h6 hk
  rw [List.reverse_append] at h4
  obtain ⟨h0, env', e, g1, g2, g3⟩ := runG_cons h4
  refine ⟨h0, env', r, l', fun p hp' => h1 p (by rw [e]; exact List.mem_append_left _ hp'), g1, by rw [g1]; exact g3, h5,
    fun hk => ?_, fun hk => ?_⟩
  · obtain ⟨e, rfl, he⟩ := h7 hk
    exact ⟨e, he, g2⟩
  · obtain ⟨rfl, dd, hd⟩ := h8 hk
    exact ⟨g2, dd, hd⟩

end Plain

theorem pgp_plain : Plain pgpFace (fun j c => .apdu { j.pgp with c := c }) .reply .cut (· = .deselect) (· = .boot)
    (· = .factory) where
  des := ⟨_, _, rfl, rfl⟩
  cmd _ _ _ _ _ h := h
  admin _ _ h := h.1
  boot _ _ h := h
  direct _ _ _ h := h

theorem piv_plain : Plain pivFace (fun j c => .apdu { j.piv with c := c }) .reply .cut (· = .deselect)
    (fun op => ∃ rnd, op = .boot rnd) (fun op => ∃ rnd, op = .factory rnd) where
  des := ⟨_, _, rfl, rfl⟩
  cmd _ _ _ _ _ h := h
  admin _ _ h := h.1
  boot _ _ h := h
  direct _ _ _ h := h

theorem pgp_use (s0 : St) (a : Pgp.St) (ha : Shares pgpFace s0 a) (H : List (Op × Env)) (op : Op) (env : Env)
    {j : In} {k : Call}
    (hk : Handed .openpgp ((run x s0 [] H).1, op, (step x (run x s0 [] H).1 op env).2) j k) :
    ∃ (h0 : List (Pgp.Op × Env)) (env' : Env) (r : Ram) (l' : List (Pgp.St × Pgp.Op × Pgp.Out)),
      (∀ e ∈ h0, ∃ e' ∈ H ++ [(op, env)], Rest e'.2 e.2) ∧
      (Pgp.run x.pgp a [] h0).1 = ⟨(run x s0 [] H).1.flash.others.pgp, some r.others.pgp⟩ ∧
      (Pgp.step x.pgp (Pgp.run x.pgp a [] h0).1 (.apdu { j.pgp with c := k.cmd }) env').2 = answer .reply .cut k.ans ∧
      Split pgpFace (run x s0 [] H).2 l' ∧
      (k.switch = true → ∃ st o, (Pgp.run x.pgp a [] h0).2 = (st, .deselect, o) :: l') ∧
      (k.switch = false → (Pgp.run x.pgp a [] h0).2 = l' ∧ ∃ d, (run x s0 [] H).1.ram = some (r, d)) := by
  obtain ⟨h0, env', r, l', g0, g1, g2, g3, g4, g5⟩ := Plain.use (C := pgpComp x) pgp_plain pgp_fits (fun _ _ => Iff.rfl)
    s0 a ha H op env hk
  have e : runG (pgpComp x).step a [] h0 = Pgp.run x.pgp a [] h0 := run_pgp x h0 a []
  rw [e] at g1 g2 g4 g5
  refine ⟨h0, env', r, l', g0, g1, g2, g3, fun h => ?_, g5⟩
  obtain ⟨⟨st, op', o⟩, he, h⟩ := g4 h
  have he : op' = .deselect := he
  subst he
  exact ⟨st, o, h⟩

theorem piv_use (s0 : St) (a : Piv.St) (ha : Shares pivFace s0 a) (H : List (Op × Env)) (op : Op) (env : Env)
    {j : In} {k : Call}
    (hk : Handed .piv ((run x s0 [] H).1, op, (step x (run x s0 [] H).1 op env).2) j k) :
    ∃ (h0 : List (Piv.Op × Env)) (env' : Env) (r : Ram) (l' : List (Piv.St × Piv.Op × Piv.Out)),
      (∀ e ∈ h0, ∃ e' ∈ H ++ [(op, env)], Rest e'.2 e.2) ∧
      (Piv.run x.piv a [] h0).1 = ⟨(run x s0 [] H).1.flash.others.piv, some r.others.piv⟩ ∧
      (Piv.step x.piv (Piv.run x.piv a [] h0).1 (.apdu { j.piv with c := k.cmd }) env').2 = answer .reply .cut k.ans ∧
      Split pivFace (run x s0 [] H).2 l' ∧
      (k.switch = true → ∃ st o, (Piv.run x.piv a [] h0).2 = (st, .deselect, o) :: l') ∧
      (k.switch = false → (Piv.run x.piv a [] h0).2 = l' ∧ ∃ d, (run x s0 [] H).1.ram = some (r, d)) := by
  obtain ⟨h0, env', r, l', g0, g1, g2, g3, g4, g5⟩ := Plain.use (C := pivComp x) piv_plain piv_fits (fun _ _ => Iff.rfl)
    s0 a ha H op env hk
  have e : runG (pivComp x).step a [] h0 = Piv.run x.piv a [] h0 := run_piv x h0 a []
  rw [e] at g1 g2 g4 g5
  refine ⟨h0, env', r, l', g0, g1, g2, g3, fun h => ?_, g5⟩
  obtain ⟨⟨st, op', o⟩, he, h⟩ := g4 h
  have he : op' = .deselect := he
  subst he
  exact ⟨st, o, h⟩

/-! ### C93: keys are used only for those who have verified, whatever else happens on the card -/

theorem may81_since {l : List Spec.Pgp.Entry} (h : Spec.Pgp.May81 l) :
    Since (fun e : Spec.Pgp.Entry => Spec.Pgp.VerifiesPw1 0x81 e.1.flash e.2.1 e.2.2)
      (fun e => Spec.Pgp.SessionEnds e.2.1 e.2.2 ∨ Spec.Pgp.Rechecked 0x81 e.2.1 e.2.2 ∨
        ∃ i, e.2.1 = .apdu i ∧ Spec.Pgp.IsSign i ∧ Spec.Pgp.Given e.2.2 ∧ Spec.Pgp.OneShot e.1.flash) l := by
  induction l with
  | nil => exact h
  | cons e l ih =>
    rcases h with h | ⟨h, h1, h2, h3⟩
    · exact .inl h
    · refine .inr ⟨ih h, ?_⟩
      rintro (h | h | h)
      · exact h1 h
      · exact h2 h
      · exact h3 h

theorem may82_since {l : List Spec.Pgp.Entry} (h : Spec.Pgp.May82 l) :
    Since (fun e : Spec.Pgp.Entry => Spec.Pgp.VerifiesPw1 0x82 e.1.flash e.2.1 e.2.2)
      (fun e => Spec.Pgp.SessionEnds e.2.1 e.2.2 ∨ Spec.Pgp.Rechecked 0x82 e.2.1 e.2.2) l := by
  induction l with
  | nil => exact h
  | cons e l ih =>
    rcases h with h | ⟨h, h1, h2⟩
    · exact .inl h
    · refine .inr ⟨ih h, ?_⟩
      rintro (h | h)
      · exact h1 h
      · exact h2 h

/-- From the log of OpenPGP to that of the card. -/
theorem pgp_lift {p2 : Byte} {Q : Spec.Pgp.Entry → Prop} {Q' : St × Op × Out → Prop}
    {H : List (Op × Env)} {s0 : St} {l : List Spec.Pgp.Entry} (hl : Split pgpFace (run x s0 [] H).2 l)
    {r : Ram} {d : Disp} (hr : (run x s0 [] H).1.ram = some (r, d)) (hd : d.current = some .openpgp)
    (hq : ∀ st op o, Spec.Pgp.SessionEnds op o ∨ Spec.Pgp.Rechecked p2 op o → Q (st, op, o))
    (hq' : ∀ e, Q' e → ∃ i o, PgpSaw e i o ∧ ∀ st : Pgp.St, st.flash = e.1.flash.others.pgp → Q (st, .apdu i, o))
    (h : Since (fun e : Spec.Pgp.Entry => Spec.Pgp.VerifiesPw1 p2 e.1.flash e.2.1 e.2.2) Q l) :
    Since (Pw1Verified p2) (fun e => Pw1Dropped p2 e ∨ Q' e) (run x s0 [] H).2 := by
  have h1 : Since (Pw1Verified p2) (fun e : St × Op × Out => e.1.ram ≠ none ∧
      (e.2.1 = .power ∨ (∃ c0 i, e.2.1 = .apdu c0 i) ∧ ∃ k, e.2.2.call = some k ∧ k.switch = true) ∨
      (∃ i o, PgpSaw e i o ∧ (Spec.Pgp.Rechecked p2 (.apdu i) o ∨ i.c.ins = 0x44 ∧ Spec.Pgp.Ok o)) ∨ Q' e)
      (run x s0 [] H).2 := by
    refine split_since hl ?_ ?_ h
    · intro s op o c hc e he hp
      obtain ⟨i, hi, hp⟩ := hp
      rcases pgp_plain.sees hc e he with ⟨j, k, hk, h2, r, h3⟩ | h | h | h
      · rw [h2] at hi hp
        rw [h3] at hp
        cases hi
        exact ⟨_, _, ⟨j, k, hk, rfl, rfl⟩, _, rfl, hp⟩
      all_goals rw [hi] at h; cases h
    · intro s op o c hc hq1
      have saw : ∀ i a, PgpSaw (s, op, o) i a → (∀ st : Pgp.St, st.flash = s.flash.others.pgp → Q (st, .apdu i, a)) →
          ∃ e ∈ c, Q e := by
        rintro i a ⟨j, k, hk, rfl, rfl⟩ hQ
        obtain ⟨d, r, rfl, _⟩ := pgp_plain.gets hc hk
        exact ⟨_, List.mem_append_right _ (.head _), hQ _ rfl⟩
      rcases hq1 with ⟨hon, h⟩ | ⟨i, a, hs, h⟩ | h
      · obtain ⟨e, he, h⟩ := pgp_plain.left hc hon h
        exact ⟨e, he, hq _ _ _ (.inl (.inr (.inr (.inl h))))⟩
      · refine saw i a hs fun st _ => hq _ _ _ ?_
        rcases h with h | h
        · exact .inr h
        · exact .inl (.inr (.inr (.inr (.inr ⟨⟨i, rfl, h.1⟩, h.2⟩))))
      · obtain ⟨i, a, hs, h⟩ := hq' _ h
        exact saw i a hs h
  refine since_mono (fun _ h => h) ?_ (since_stays (a := .openpgp) ?_ ?_ H s0 hr hd h1)
  · rintro e ((h | h) | h)
    · exact .inl h
    · exact .inr (.inr (.inl h))
    · exact .inr (.inr (.inr h))
  · exact fun s o hn => .inl ⟨hn, .inl rfl⟩
  · exact fun s c i o k hn hc hk => .inl ⟨hn, .inr ⟨⟨c, i, rfl⟩, k, hc, hk⟩⟩

/-- C93: on the whole card, a signature is given only if PW1 was verified for it (81) by a command that went to OpenPGP;
since then the host has not left OpenPGP, nor was PW1 checked or changed, nor - if it has to be verified for every
signature - used for one. -/
theorem C93_openpgp_sign (hx : x.pgp.Ok) (f : Flash) (H : List (Op × Env)) (op : Op) (env : Env) (i : Pgp.In) (o : Pgp.Out)
    (hs : PgpSaw ((run x ⟨f, none⟩ [] H).1, op, (step x (run x ⟨f, none⟩ [] H).1 op env).2) i o)
    (hi : Spec.Pgp.IsSign i) (hg : Spec.Pgp.Given o) :
    Since (Pw1Verified 0x81) (fun e => Pw1Dropped 0x81 e ∨ SignedOnce e) (run x ⟨f, none⟩ [] H).2 := by
  obtain ⟨j, k, hk, rfl, rfl⟩ := hs
  obtain ⟨h0, env', r, l', _, g1, g2, g3, g4, g5⟩ := pgp_use (x := x)
    ⟨f, none⟩ ⟨f.others.pgp, none⟩ ⟨rfl, fun _ _ h => by cases h⟩ H op env hk
  have hm := Pgp.C35_sign_needs_pw1 (x := x.pgp) hx f.others.pgp h0 { j.pgp with c := k.cmd } env' hi (by rw [g2]; exact hg)
  cases hsw : k.switch with
  | true =>
    exfalso
    obtain ⟨st, o', hl⟩ := g4 hsw
    rw [hl] at hm
    rcases hm with ⟨i, h, _⟩ | ⟨_, h, _⟩
    · cases h
    · exact h (.inr (.inr (.inl rfl)))
  | false =>
    obtain ⟨hl, d, hd⟩ := g5 hsw
    rw [hl] at hm
    obtain ⟨r1, d1, h1, h2⟩ := (handed_current hk.2.2.1).2 hsw
    refine pgp_lift g3 h1 (h2.trans (congrArg some hk.2.2.2)) ?_ ?_ (may81_since hm)
    · rintro st op o (h | h)
      · exact .inl h
      · exact .inr (.inl h)
    · rintro e ⟨i, o, h1, h2, h3, h4⟩
      exact ⟨i, o, h1, fun st hst => .inr (.inr ⟨i, rfl, h2, h3, by rw [hst]; exact h4⟩)⟩

/-- C93: DECIPHER and INTERNAL AUTHENTICATE give a result only if PW1 was verified for them (82) by a command that went to
OpenPGP, and since then the host has not left OpenPGP, nor was PW1 checked or changed. -/
theorem C93_openpgp_decipher (hx : x.pgp.Ok) (f : Flash) (H : List (Op × Env)) (op : Op) (env : Env) (i : Pgp.In)
    (o : Pgp.Out) (hs : PgpSaw ((run x ⟨f, none⟩ [] H).1, op, (step x (run x ⟨f, none⟩ [] H).1 op env).2) i o)
    (hi : Spec.Pgp.IsDecipher i ∨ Spec.Pgp.IsAuth i) (hg : Spec.Pgp.Given o) :
    Since (Pw1Verified 0x82) (Pw1Dropped 0x82) (run x ⟨f, none⟩ [] H).2 := by
  obtain ⟨j, k, hk, rfl, rfl⟩ := hs
  obtain ⟨h0, env', r, l', _, g1, g2, g3, g4, g5⟩ := pgp_use (x := x)
    ⟨f, none⟩ ⟨f.others.pgp, none⟩ ⟨rfl, fun _ _ h => by cases h⟩ H op env hk
  have hm := Pgp.C36_use_needs_pw1 (x := x.pgp) hx f.others.pgp h0 { j.pgp with c := k.cmd } env' hi (by rw [g2]; exact hg)
  cases hsw : k.switch with
  | true =>
    exfalso
    obtain ⟨st, o', hl⟩ := g4 hsw
    rw [hl] at hm
    rcases hm with ⟨i, h, _⟩ | ⟨_, h, _⟩
    · cases h
    · exact h (.inr (.inr (.inl rfl)))
  | false =>
    obtain ⟨hl, d, hd⟩ := g5 hsw
    rw [hl] at hm
    obtain ⟨r1, d1, h1, h2⟩ := (handed_current hk.2.2.1).2 hsw
    refine since_mono (fun _ h => h) (fun _ h => .inl h) (pgp_lift (Q' := fun _ => False) g3 h1
      (h2.trans (congrArg some hk.2.2.2)) ?_ (fun _ h => h.elim) (may82_since hm))
    rintro st op o (h | h)
    · exact .inl h
    · exact .inr h

/-! #### PIV -/

theorem pinShown_since {l : List Spec.Piv.Entry} (h : Spec.Piv.PinShown l) :
    Since (fun e : Spec.Piv.Entry => Spec.Piv.PresentsPin e.1.flash e.2.1 ∧ ¬ Spec.Piv.SessionEnds e.2.1 e.2.2 ∧
        ¬ Spec.Piv.PinRevoked e.2.1 e.2.2)
      (fun e => Spec.Piv.SessionEnds e.2.1 e.2.2 ∨ Spec.Piv.PinRevoked e.2.1 e.2.2) l := by
  induction l with
  | nil => exact h
  | cons e l ih =>
    obtain ⟨h | h, h1, h2⟩ := h
    · exact .inl ⟨h, h1, h2⟩
    · exact .inr ⟨ih h, fun h => h.elim h1 h2⟩

theorem pinFresh_since {l : List Spec.Piv.Entry} (h : Spec.Piv.PinFresh l) :
    Since (fun e : Spec.Piv.Entry => Spec.Piv.PresentsPin e.1.flash e.2.1 ∧ ¬ Spec.Piv.SessionEnds e.2.1 e.2.2 ∧
        ¬ Spec.Piv.PinRevoked e.2.1 e.2.2)
      (fun e => (Spec.Piv.SessionEnds e.2.1 e.2.2 ∨ Spec.Piv.PinRevoked e.2.1 e.2.2) ∨ Spec.Piv.KeyUsed e.2.1 e.2.2) l := by
  induction l with
  | nil => exact h
  | cons e l ih =>
    obtain ⟨h | h, h1, h2, h3⟩ := h
    · exact .inl ⟨h, h1, h2⟩
    · exact .inr ⟨ih h, fun h => h.elim (fun h => h.elim h1 h2) h3⟩

theorem touched_since {t : Nat} {l : List Spec.Piv.Entry} (h : Spec.Piv.TouchedAt t l) :
    Since (fun e : Spec.Piv.Entry => ∃ i k m, e.2.1 = .apdu i ∧ i.c.ins = 0x87 ∧ Piv.refOf i.c.p2 = some k ∧
        Piv.metaOf k e.1.flash = some m ∧ (m.touch = 2 ∨ m.touch = 3) ∧ i.nfc = false ∧ i.present = true ∧ i.tick' = t)
      (fun e => e.2.2 = .cut ∨ ∃ rnd, e.2.1 = .boot rnd) l := by
  induction l with
  | nil => exact h
  | cons e l ih =>
    rcases h with h | ⟨h, h1, h2⟩
    · exact .inl h
    · refine .inr ⟨ih h, ?_⟩
      rintro (h | ⟨r, h⟩)
      · exact h1 h
      · exact h2 r h

/-- From the log of PIV to that of the card. -/
theorem piv_lift {Q : Spec.Piv.Entry → Prop} {Q' : St × Op × Out → Prop}
    {H : List (Op × Env)} {s0 : St} {l : List Spec.Piv.Entry} (hl : Split pivFace (run x s0 [] H).2 l)
    {r : Ram} {d : Disp} (hr : (run x s0 [] H).1.ram = some (r, d)) (hd : d.current = some .piv)
    (hq : ∀ st op o, Spec.Piv.SessionEnds op o ∨ Spec.Piv.PinRevoked op o → Q (st, op, o))
    (hq' : ∀ e, Q' e → ∃ i o, PivSaw e i o ∧ ∀ st, Q (st, .apdu i, o))
    (h : Since (fun e : Spec.Piv.Entry => Spec.Piv.PresentsPin e.1.flash e.2.1 ∧ ¬ Spec.Piv.SessionEnds e.2.1 e.2.2 ∧
        ¬ Spec.Piv.PinRevoked e.2.1 e.2.2) Q l) :
    Since PinPresented (fun e => PinDropped e ∨ Q' e) (run x s0 [] H).2 := by
  have h1 : Since PinPresented (fun e : St × Op × Out => e.1.ram ≠ none ∧
      (e.2.1 = .power ∨ (∃ c0 i, e.2.1 = .apdu c0 i) ∧ ∃ k, e.2.2.call = some k ∧ k.switch = true) ∨
      (∃ i o, PivSaw e i o ∧ (Spec.Piv.Selected (.apdu i) o ∨ Spec.Piv.ResetDone (.apdu i) o ∨
        Spec.Piv.PinRevoked (.apdu i) o)) ∨ Q' e)
      (run x s0 [] H).2 := by
    refine split_since hl ?_ ?_ h
    · rintro s op o c hc e he ⟨⟨i, hi, hp⟩, hp2, hp3⟩
      rcases piv_plain.sees hc e he with ⟨j, k, hk, h2, r, h3⟩ | ⟨_, h⟩ | ⟨_, h⟩ | h
      · rw [h2] at hi hp2 hp3
        rw [h3] at hp
        cases hi
        exact ⟨_, _, ⟨j, k, hk, rfl, rfl⟩, ⟨_, rfl, hp⟩, fun h => hp2 (.inl h), hp3⟩
      all_goals rw [hi] at h; cases h
    · intro s op o c hc hq1
      have saw : ∀ i a, PivSaw (s, op, o) i a → (∀ st : Piv.St, Q (st, .apdu i, a)) → ∃ e ∈ c, Q e := by
        rintro i a ⟨j, k, hk, rfl, rfl⟩ hQ
        obtain ⟨d, r, rfl, _⟩ := piv_plain.gets hc hk
        exact ⟨_, List.mem_append_right _ (.head _), hQ _⟩
      rcases hq1 with ⟨hon, h⟩ | ⟨i, a, hs, h⟩ | h
      · obtain ⟨e, he, h⟩ := piv_plain.left hc hon h
        exact ⟨e, he, hq _ _ _ (.inl (.inr (.inr (.inl h))))⟩
      · refine saw i a hs fun st => hq _ _ _ ?_
        rcases h with h | h | h
        · exact .inl (.inr (.inr (.inr (.inr (.inl h)))))
        · exact .inl (.inr (.inr (.inr (.inr (.inr h)))))
        · exact .inr h
      · obtain ⟨i, a, hs, h⟩ := hq' _ h
        exact saw i a hs h
  refine since_mono (fun _ h => h) ?_ (since_stays (a := .piv) ?_ ?_ H s0 hr hd h1)
  · rintro e ((h | h) | h)
    · exact .inl h
    · exact .inr (.inr (.inl h))
    · exact .inr (.inr (.inr h))
  · exact fun s o hn => .inl ⟨hn, .inl rfl⟩
  · exact fun s c i o k hn hc hk => .inl ⟨hn, .inr ⟨⟨c, i, rfl⟩, k, hc, hk⟩⟩

/-- The same for touches, which outlive a change of the applet. -/
theorem piv_touch_lift {t : Nat} {H : List (Op × Env)} {s0 : St} {l : List Spec.Piv.Entry}
    (hl : Split pivFace (run x s0 [] H).2 l) (hr : (run x s0 [] H).1.ram ≠ none) (h : Spec.Piv.TouchedAt t l) :
    Since (PivTouched t) Restarted (run x s0 [] H).2 := by
  have h1 : Since (PivTouched t) (fun e : St × Op × Out => (∃ r, e.2.1 = .boot r) ∧ e.2.2.host ≠ .cut)
      (run x s0 [] H).2 := by
    refine split_since hl ?_ ?_ (touched_since h)
    · rintro s op o c hc e he ⟨i, k, m, hi, h4, h5, h6, h7⟩
      rcases piv_plain.sees hc e he with ⟨j, kk, hk, h2, r, h3⟩ | ⟨_, h⟩ | ⟨_, h⟩ | h
      · rw [h2] at hi
        rw [h3] at h6
        cases hi
        exact ⟨_, _, k, m, ⟨j, kk, hk, rfl, rfl⟩, h4, h5, h6, h7⟩
      all_goals rw [hi] at h; cases h
    · rintro s op o c hc ⟨⟨r, rfl⟩, h⟩
      obtain ⟨e, he, h⟩ := piv_plain.restarted hc h
      exact ⟨e, he, .inr h⟩
  exact since_mono (fun _ h => h) (fun _ h => .inl h) (since_on (fun s r o h => ⟨⟨r, rfl⟩, h⟩) H s0 hr h1)

/-- C93: on the whole card, a private key of PIV is used only if its PIN policy is satisfied - the PIN was presented by a
command that went to PIV, and the host has not left or reselected PIV since, nor was the PIN revoked or, for the policy
"always", a key used - and its touch policy as well. -/
theorem C93_piv_key (hx : x.piv.Ok) (f : Flash) (H : List (Op × Env)) (op : Op) (env : Env) (i : Piv.In) (o : Piv.Out)
    (hs : PivSaw ((run x ⟨f, none⟩ [] H).1, op, (step x (run x ⟨f, none⟩ [] H).1 op env).2) i o)
    (hi : i.c.ins = 0x87) (hp : i.c.p2 ≠ 0x9B) (ht : i.tick < 2 ^ 32) (ho : Spec.Piv.Ok o) :
    ∃ k m, Piv.refOf i.c.p2 = some k ∧ Piv.metaOf k (run x ⟨f, none⟩ [] H).1.flash.others.piv = some m ∧
      PinSatisfied (run x ⟨f, none⟩ [] H).2 m ∧ TouchSatisfied (run x ⟨f, none⟩ [] H).2 i m := by
  obtain ⟨j, kk, hk, rfl, rfl⟩ := hs
  obtain ⟨h0, env', r, l', _, g1, g2, g3, g4, g5⟩ := piv_use (x := x)
    ⟨f, none⟩ ⟨f.others.piv, none⟩ ⟨rfl, fun _ _ h => by cases h⟩ H op env hk
  obtain ⟨k, m, a1, a2, a3, a4⟩ := Piv.C31_policies_obeyed (x := x.piv) hx f.others.piv h0 { j.piv with c := kk.cmd }
    hi hp ht env' (by rw [show Piv.after x.piv f.others.piv h0 = (Piv.run x.piv ⟨f.others.piv, none⟩ [] h0).1 from rfl, g2]; exact ho)
  have a2 : Piv.metaOf k (Piv.run x.piv ⟨f.others.piv, none⟩ [] h0).1.flash = some m := a2
  have a3 : Spec.Piv.PinOk (Piv.run x.piv ⟨f.others.piv, none⟩ [] h0).2 m := a3
  have a4 : Spec.Piv.TouchOk (Piv.run x.piv ⟨f.others.piv, none⟩ [] h0).2 _ m := a4
  rw [g1] at a2
  refine ⟨k, m, a1, a2, ?_, ?_⟩
  · cases hsw : kk.switch with
    | true =>
      obtain ⟨st, o', hl⟩ := g4 hsw
      rw [hl] at a3
      exact ⟨fun h => absurd (.inr (.inr (.inl rfl))) (a3.1 h).2.1, fun h => absurd (.inr (.inr (.inl rfl))) (a3.2 h).2.1⟩
    | false =>
      rw [(g5 hsw).1] at a3
      obtain ⟨r1, d1, h1, h2⟩ := (handed_current hk.2.2.1).2 hsw
      have h2 := h2.trans (congrArg some hk.2.2.2)
      refine ⟨fun h => ?_, fun h => ?_⟩
      · refine since_mono (fun _ h => h) (fun _ h => .inl h)
          (piv_lift (Q' := fun _ => False) g3 h1 h2 ?_ (fun _ h => h.elim) (pinShown_since (a3.1 h)))
        exact fun _ _ _ h => h
      · refine piv_lift g3 h1 h2 ?_ ?_ (pinFresh_since (a3.2 h))
        · exact fun _ _ _ h => .inl h
        · rintro e ⟨i, o, h1, h2⟩
          exact ⟨i, o, h1, fun _ => .inr h2⟩
  · rcases a4 with h | ⟨h2, h3⟩
    · exact .inl h
    · refine .inr ⟨h2, fun hm => ?_⟩
      rcases h3 hm with h | ⟨t, h, h4⟩
      · exact .inl h
      · refine .inr ⟨t, ?_, h4⟩
        have hl' : Spec.Piv.TouchedAt t l' := by
          cases hsw : kk.switch with
          | true =>
            obtain ⟨st, o', hl⟩ := g4 hsw
            rw [hl] at h
            rcases h with ⟨_, _, _, h, _⟩ | h
            · cases h
            · exact h.1
          | false => rw [(g5 hsw).1] at h; exact h
        exact piv_touch_lift g3 hk.1 hl'

end Verif.Card
