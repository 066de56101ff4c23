import Verif.Lemmas.OathCode
set_option linter.unusedSimpArgs false
/-
Lemmas for C99: the request of SET CODE, and what SET CODE, VALIDATE, SELECT and the installation do.
-/
namespace Verif.Oath
open Verif.Spec.Oath Verif.Spec.OathCode Cmd

theorem parseSetCode_none (d : Bytes) : PE.Ok (parseSetCode d) none ↔ ClearReq d := by
  parse_ok [parseSetCode]
  constructor
  · rintro (⟨h, _⟩ | ⟨_, _, a, h0, rfl, b, h1, (⟨rfl, _⟩ | h)⟩)
    · exact .inl (List.length_eq_zero_iff.mp h)
    · refine .inr ⟨d.drop 2, ?_⟩
      have e0 := drop_of_getElem? h0
      have e1 := drop_of_getElem? h1
      rw [List.drop_zero] at e0
      simp only [Nat.zero_add, Nat.reduceAdd] at e0 e1
      rw [e1] at e0
      exact e0
    · simp at h
  · rintro (rfl | ⟨rest, rfl⟩)
    · exact .inl ⟨rfl, trivial⟩
    · exact .inr ⟨by simp, by simp, 0x73, rfl, rfl, 0, rfl, .inl ⟨rfl, trivial⟩⟩

theorem parseSetCode_some (d k c resp : Bytes) :
    PE.Ok (parseSetCode d) (some (k, c, resp)) ↔ CodeReq d k c resp := by
  parse_ok [parseSetCode]
  constructor
  · rintro (⟨_, h⟩ | ⟨_, _, a, h0, rfl, b, h1, (⟨_, h⟩ | ⟨_, rfl, h3, t, h4, rfl, cl, h5, h6, t', h7, rfl, rl, h8, rfl,
      h9, k', ⟨h10, h11⟩, c', ⟨h12, h13⟩, r', ⟨h14, h15⟩, h16⟩)⟩)
    · cases h
    · cases h
    · cases h16
      simp only [UInt8.reduceToNat, Nat.reduceAdd] at *
      have hk : k.length = 16 := by rw [← h11]; simp; omega
      have hc : c.length = cl.toNat := by rw [← h13]; simp; omega
      have hr : resp.length = 20 := by rw [← h15]; simp; omega
      have hcl := cl.toNat_lt
      have h2 : ∃ alg, d[2]? = some alg := ⟨d[2], List.getElem?_eq_getElem (by omega)⟩
      obtain ⟨alg, h2⟩ := h2
      refine ⟨hk, by omega, hr, alg, ?_⟩
      have e0 := drop_of_getElem? h0
      have e1 := drop_of_getElem? h1
      have e2 := drop_of_getElem? h2
      have e3 := drop_of_take h11
      have e4 := drop_of_getElem? h4
      have e5 := drop_of_getElem? h5
      have e6 := drop_of_take h13
      have e7 := drop_of_getElem? h7
      have e8 := drop_of_getElem? h8
      have e9 := drop_of_take h15
      rw [List.drop_zero] at e0
      simp only [Nat.zero_add, Nat.reduceAdd] at e0 e1 e2 e3 e4 e5 e6 e7 e8 e9
      refine e0.trans ?_
      rw [e1, e2, e3, e4, e5, e6, e7, e8, e9, List.drop_eq_nil_of_le (by omega)]
      simp [chalTlv, hc]
  · rintro ⟨hk, hc, hr, alg, hw⟩
    have e := toNat_ofNat_lt (n := c.length) (by omega)
    have d0 : d.drop 0 = 0x73 :: 17 :: alg :: (k ++ (0x74 :: UInt8.ofNat c.length :: (c ++
        (0x75 :: 20 :: (resp ++ []))))) := by
      rw [hw]; simp [chalTlv]
    have d1 := drop_succ d0
    have d2 := drop_succ d1
    have d3 := drop_succ d2
    have d4 := drop_add d3
    have d5 := drop_succ d4
    have d6 := drop_succ d5
    have d7 := drop_add d6
    have d8 := drop_succ d7
    have d9 := drop_succ d8
    have hl : d.length = 43 + c.length := by rw [hw]; simp [chalTlv, hk, hr]; omega
    simp only [hk, Nat.zero_add, Nat.reduceAdd, Nat.add_assoc] at d1 d2 d3 d4 d5 d6
    simp only [hk, Nat.zero_add, Nat.reduceAdd, Nat.add_assoc] at d7 d8 d9
    refine .inr ⟨by omega, by omega, 0x73, getElem?_of_drop d0, rfl, 17, getElem?_of_drop d1, .inr ?_⟩
    simp only [UInt8.reduceToNat, Nat.reduceAdd]
    refine ⟨by decide, trivial, by omega, 0x74, getElem?_of_drop d4, rfl, UInt8.ofNat c.length, getElem?_of_drop d5, ?_, 0x75, ?_, rfl,
      20, ?_, rfl, ?_, k, ⟨by omega, ?_⟩, c, ⟨?_, ?_⟩, resp, ⟨?_, ?_⟩, rfl⟩
    · rw [e]; omega
    · rw [e]; exact getElem?_of_drop d7
    · rw [e]; exact getElem?_of_drop (i := 21 + c.length + 1) (by rw [Nat.add_assoc]; exact d8)
    · rw [e]; simp only [UInt8.reduceToNat]; omega
    · rw [d3, ← hk]; simp
    · rw [e]; omega
    · rw [e, d6]; simp
    · rw [e]; omega
    · rw [e, Nat.add_assoc, d9, ← hr]; simp

variable {A : Fault → Prop} {x : Ext} {i : In} {f : Flash} {r : Ram}

/-- The outcomes of SET CODE, with reasons. -/
inductive SetEff (A : Fault → Prop) (x : Ext) (i : In) (f : Flash) (r : Ram) : Outcome Reply → Flash → Ram → Prop
  | p12 (h : i.c.p1 ≠ 0 ∨ i.c.p2 ≠ 0) : SetEff A x i f r (.done (.sw SW.wrongP1P2)) f r
  | bad (sw : SW) (h : sw ≠ SW.ok) (hc : ¬ ClearReq i.c.data) (hk : ∀ k c resp, ¬ CodeReq i.c.data k c resp) :
      SetEff A x i f r (.done (.sw sw)) f r
  | proof (k c resp : Bytes) (hq : CodeReq i.c.data k c resp) (hm : x.hmac 1 k c ≠ resp) :
      SetEff A x i f r (.done (.sw SW.dataInvalid)) f r
  | io (h : Io A f) (hq : ClearReq i.c.data ∨ ∃ k c, CodeReq i.c.data k c (x.hmac 1 k c)) (b : Bool) :
      SetEff A x i f r (.done ioErr) f { r with validated := b }
  | cut (h : A .cut) (hq : ClearReq i.c.data ∨ ∃ k c, CodeReq i.c.data k c (x.hmac 1 k c)) (r' : Ram) :
      SetEff A x i f r .cut f r'
  | clear (o : OathFile) (ho : f.oath = some o) (hq : ClearReq i.c.data) :
      SetEff A x i f r (.done (.sw SW.ok)) { f with oath := some { o with key := some [] } } { r with validated := true }
  | set (o : OathFile) (ho : f.oath = some o) (k c : Bytes) (hq : CodeReq i.c.data k c (x.hmac 1 k c)) :
      SetEff A x i f r (.done (.sw SW.ok)) { f with oath := some { o with key := some k } } { r with validated := false }

theorem setCode_wp : wp A (setCode x i) (fun a => SetEff A x i f r (.done a))
    (fun e => SetEff A x i f r (.done e)) (SetEff A x i f r .cut) f r := by
  simp only [setCode, Cmd.throw_bind]
  apply wp_ite
  · intro h; exact wp_throw (.p12 (p12_pos h))
  · intro _
    apply wp_bind
    apply wp_parse (parseSetCode_safe _)
    · intro a ha _
      cases a with
      | none =>
        have hq := (parseSetCode_none _).mp ha
        apply wp_bind
        apply wp_mod
        apply wp_bind
        apply wp_wrOr
        · intro f' hf
          obtain ⟨o, ho, rfl⟩ := Option.map_eq_some_iff.mp hf
          exact wp_pure (.clear o ho hq)
        · intro hf; exact .io (.inl (by simpa using hf)) (.inl hq) true
        · intro h; exact .io (.inr h) (.inl hq) true
        · intro h; exact .cut h (.inl hq) _
      | some p =>
        obtain ⟨k, c, resp⟩ := p
        have hq := (parseSetCode_some _ _ _ _).mp ha
        apply wp_ite
        · intro hm; exact wp_throw (.proof k c resp hq (by simpa using hm))
        · intro hm
          have hm : x.hmac 1 k c = resp := by simpa using hm
          subst hm
          apply wp_bind
          apply wp_mod
          apply wp_bind
          apply wp_wrOr
          · intro f' hf
            obtain ⟨o, ho, rfl⟩ := Option.map_eq_some_iff.mp hf
            exact wp_pure (.set o ho k c hq)
          · intro hf; exact .io (.inl (by simpa using hf)) (.inr ⟨k, c, hq⟩) false
          · intro h; exact .io (.inr h) (.inr ⟨k, c, hq⟩) false
          · intro h; exact .cut h (.inr ⟨k, c, hq⟩) _
    · intro sw hsw
      refine .bad sw (parseSetCode_throws _ sw hsw) ?_ ?_
      · intro h
        have := (parseSetCode_none _).mpr h
        unfold PE.Ok at this
        rw [hsw] at this; cases this
      · intro k c resp h
        have := (parseSetCode_some _ _ _ _).mpr h
        unfold PE.Ok at this
        rw [hsw] at this; cases this

/-- The outcomes of VALIDATE, with reasons. -/
inductive ValidEff (A : Fault → Prop) (x : Ext) (i : In) (f : Flash) (r : Ram) : Outcome Reply → Flash → Ram → Prop
  | p12 (h : i.c.p1 ≠ 0 ∨ i.c.p2 ≠ 0) : ValidEff A x i f r (.done (.sw SW.wrongP1P2)) f r
  | bad (sw : SW) (h : sw ≠ SW.ok) (hq : ∀ resp c, ¬ ValidateReq i.c.data resp c) :
      ValidEff A x i f r (.done (.sw sw)) f r
  | io (h : f.oath.bind (·.key) = none ∨ A .fail) : ValidEff A x i f r (.done ioErr) f r
  | cut (h : A .cut) : ValidEff A x i f r .cut f r
  | unset (h : f.oath.bind (·.key) = some []) : ValidEff A x i f r (.done (.sw SW.dataInvalid)) f r
  | wrong (k resp c : Bytes) (hk : f.oath.bind (·.key) = some k) (hne : k ≠ []) (hq : ValidateReq i.c.data resp c)
      (hm : x.hmac 1 k r.authChal ≠ resp) : ValidEff A x i f r (.done (.sw SW.wrongData)) f { r with validated := false }
  | right (k c : Bytes) (hk : f.oath.bind (·.key) = some k) (hne : k ≠ [])
      (hq : ValidateReq i.c.data (x.hmac 1 k r.authChal) c) :
      ValidEff A x i f r (.done (.resp ([0x75, 20] ++ x.hmac 1 k c) SW.ok)) f { r with validated := true }

theorem validate_wp : wp A (validate x i) (fun a => ValidEff A x i f r (.done a))
    (fun e => ValidEff A x i f r (.done e)) (ValidEff A x i f r .cut) f r := by
  simp only [validate, Cmd.throw_bind]
  apply wp_ite
  · intro h; exact wp_throw (.p12 (p12_pos h))
  · intro _
    apply wp_bind
    apply wp_parse (parseValidate_safe _)
    · rintro ⟨resp, c⟩ ha _
      have hq := (parseValidate_ok _ _ _).mp ha
      apply wp_bind
      apply wp_rdOr
      · intro k hk
        apply wp_ite
        · intro he
          have he : k = [] := by simpa using he
          exact wp_throw (.unset (he ▸ hk))
        · intro he
          have he : k ≠ [] := by simpa using he
          apply wp_bind
          apply wp_get
          apply wp_bind
          apply wp_mod
          apply wp_ite
          · intro hm
            have hm : x.hmac 1 k r.authChal ≠ resp := by simpa using hm
            apply wp_throw
            have : (x.hmac 1 k r.authChal == resp) = false := by simpa using hm
            rw [this]
            exact .wrong k resp c hk he hq hm
          · intro hm
            have hm : x.hmac 1 k r.authChal = resp := by simpa using hm
            apply wp_pure
            have : (x.hmac 1 k r.authChal == resp) = true := by simpa using hm
            rw [this]
            subst hm
            exact .right k c hk he hq
      · intro h; exact .io (.inl h)
      · intro h; exact .io (.inr h)
      · exact .cut
    · intro sw hsw
      refine .bad sw (parseValidate_throws _ sw hsw) ?_
      intro resp c h
      have := (parseValidate_ok _ _ _).mpr h
      unfold PE.Ok at this
      rw [hsw] at this; cases this

/-- What an installation does to the access code. -/
theorem install_code {reset : Bool} {rnd : Bytes} :
    let P : Outcome Reply → Flash → Ram → Prop := fun o f' r' =>
      (f'.oath.bind (·.key) = f.oath.bind (·.key) ∨
        (f'.oath.bind (·.key) = some [] ∧ (reset = true ∨ f.oath.bind (·.key) = none ∨ A .fail))) ∧
      (reset = true → o = .done (.sw SW.ok) → f'.oath.bind (·.key) = some []) ∧ r' = poweroff r
    wp A (install reset rnd) (fun a => P (.done a)) (fun e => P (.done e))
      (fun f' r' => ∃ r'', P .cut f' r'') f r := by
  intro P
  simp only [install, Cmd.throw_bind]
  apply wp_bind
  apply wp_mod
  apply wp_bind
  have hwipe : (reset = true ∨ f.oath = none ∨ A .fail) → wp A (do
      Cmd.wrOr (fun f => some { f with oath := some { (f.oath.getD ⟨[], none, none⟩) with recs := [] } }) ioErr
      Cmd.wrOr (fun f => f.oath.map fun o => { f with oath := some { o with key := some [] } }) ioErr
      Cmd.wrOr (fun f => f.oath.map fun o => { f with oath := some { o with handle := some rnd } }) ioErr
      return .sw SW.ok) (fun a => P (.done a)) (fun e => P (.done e)) (fun f' r' => ∃ r'', P .cut f' r'')
      f (poweroff r) := by
    intro h
    have h : reset = true ∨ f.oath.bind (·.key) = none ∨ A .fail := by
      rcases h with h | h | h
      · exact .inl h
      · exact .inr (.inl (by rw [h]; rfl))
      · exact .inr (.inr h)
    have e1 : ((f.oath.getD ⟨[], none, none⟩).key : Option Bytes) = f.oath.bind (·.key) := by
      cases f.oath <;> rfl
    have nio : (Outcome.done ioErr : Outcome Reply) ≠ .done (.sw SW.ok) := by decide
    apply wp_bind
    apply wp_wrOr
    · intro f1 hf1
      cases hf1
      apply wp_bind
      apply wp_wrOr
      · intro f2 hf2
        simp only [Option.map_some, Option.some.injEq] at hf2
        subst hf2
        apply wp_bind
        apply wp_wrOr
        · intro f3 hf3
          simp only [Option.map_some, Option.some.injEq] at hf3
          subst hf3
          exact wp_pure ⟨.inr ⟨rfl, h⟩, fun _ _ => rfl, rfl⟩
        · intro hf3; simp at hf3
        · intro _; exact ⟨.inr ⟨rfl, h⟩, fun _ h => absurd h nio, rfl⟩
        · intro _; exact ⟨_, .inr ⟨rfl, h⟩, fun _ h => (by cases h), rfl⟩
      · intro hf2; simp at hf2
      · intro _; exact ⟨.inl e1, fun _ h => absurd h nio, rfl⟩
      · intro _; exact ⟨_, .inl e1, fun _ h => (by cases h), rfl⟩
    · intro hf1; cases hf1
    · intro hf; exact ⟨.inl rfl, fun _ h => absurd h nio, rfl⟩
    · intro _; exact ⟨_, .inl rfl, fun _ h => (by cases h), rfl⟩
  apply wp_rdF
  · intro _
    cases ho : f.oath with
    | none =>
      rw [if_neg (by simp)]
      exact hwipe (.inr (.inl ho))
    | some o =>
      cases hr : reset with
      | true => rw [if_neg (by simp)]; exact hwipe (.inl hr)
      | false =>
        rw [if_pos (by simp)]
        exact wp_pure ⟨.inl rfl, fun h => absurd h (by rw [hr]; decide), rfl⟩
  · intro hf
    rw [if_neg (by simp)]
    exact hwipe (.inr (.inr hf))
  · intro _; exact ⟨_, .inl rfl, fun _ h => (by cases h), rfl⟩

/-! ### Running them -/

theorem run_set (hi : IsSet i) {s : St} (hv : s.ram.validated = true) {env : Env} (he : env.all A) :
    ∃ o f' r', SetEff A x i s.flash s.ram o f' r' ∧ step x s (.apdu i) env =
      (match o with | .cut => (⟨f', Ram.init⟩, .cut) | .done a => (⟨f', r'⟩, .reply a)) := by
  have hw : wp A (process x i) (fun a => SetEff A x i s.flash s.ram (.done a))
      (fun e => SetEff A x i s.flash s.ram (.done e)) (SetEff A x i s.flash s.ram .cut) s.flash s.ram := by
    unfold IsSet at hi
    unfold process
    apply wp_bind; apply wp_get
    simp only [hv, hi]
    exact setCode_wp
  have := runCmd_of_wp (P := SetEff A x i s.flash s.ram) hw he
  revert this
  simp only [step, exec]
  rcases runCmd (process x i) s.flash s.ram env with ⟨f', r', o⟩
  intro h
  exact ⟨o, f', r', h, by cases o <;> rfl⟩

theorem run_validate (hi : IsValidate i) (s : St) {env : Env} (he : env.all A) :
    ∃ o f' r', ValidEff A x i s.flash s.ram o f' r' ∧ step x s (.apdu i) env =
      (match o with | .cut => (⟨f', Ram.init⟩, .cut) | .done a => (⟨f', r'⟩, .reply a)) := by
  have hw : wp A (process x i) (fun a => ValidEff A x i s.flash s.ram (.done a))
      (fun e => ValidEff A x i s.flash s.ram (.done e)) (ValidEff A x i s.flash s.ram .cut) s.flash s.ram := by
    unfold IsValidate at hi
    unfold process
    apply wp_bind; apply wp_get
    simp only [hi]
    cases s.ram.validated <;> exact validate_wp
  have := runCmd_of_wp (P := ValidEff A x i s.flash s.ram) hw he
  revert this
  simp only [step, exec]
  rcases runCmd (process x i) s.flash s.ram env with ⟨f', r', o⟩
  intro h
  exact ⟨o, f', r', h, by cases o <;> rfl⟩

theorem run_select (hi : IsSelect i) (s : St) {env : Env} (he : env.all A) :
    ∃ o f' r', SelEff A i s.flash s.ram o f' r' ∧ step x s (.apdu i) env =
      (match o with | .cut => (⟨f', Ram.init⟩, .cut) | .done a => (⟨f', r'⟩, .reply a)) := by
  have hw : wp A (process x i) (fun a => SelEff A i s.flash s.ram (.done a))
      (fun e => SelEff A i s.flash s.ram (.done e)) (SelEff A i s.flash s.ram .cut) s.flash s.ram := by
    obtain ⟨hi, hp⟩ := hi
    unfold process
    apply wp_bind; apply wp_get
    simp only [hi, hp]
    cases s.ram.validated <;> exact select_eff
  have := runCmd_of_wp (P := SelEff A i s.flash s.ram) hw he
  revert this
  simp only [step, exec]
  rcases runCmd (process x i) s.flash s.ram env with ⟨f', r', o⟩
  intro h
  exact ⟨o, f', r', h, by cases o <;> rfl⟩

theorem not_ok_sw {sw : SW} {d : Bytes} (h : sw ≠ SW.ok) : ¬ Verif.Spec.OathCode.Ok (.reply (.resp d sw)) := by
  rintro ⟨d', h'⟩
  cases h'
  exact h rfl

/-- C99, one operation. -/
theorem sess_step (hx : GoodHmac x) (s : St) (op : Op) {env : Env} (he : env.all A) :
    SessStep x (A .fail) (sess s) op (step x s op env).2 (sess (step x s op env).1) := by
  cases op with
  | apdu i =>
    unfold SessStep
    simp only
    by_cases hset : IsSet i
    · cases hv : s.ram.validated with
      | true =>
        obtain ⟨o, f', r', h, hs⟩ := run_set (x := x) hset hv he
        rw [hs]
        cases h with
        | cut => simp only [if_pos]; rfl
        | p12 => rw [if_neg (by simp), if_pos hset]; exact .inl ⟨hv, .inr (.inr (.inl ⟨not_ok_sw (by decide), rfl⟩))⟩
        | bad sw h => rw [if_neg (by simp), if_pos hset]; exact .inl ⟨hv, .inr (.inr (.inl ⟨not_ok_sw h, rfl⟩))⟩
        | proof => rw [if_neg (by simp), if_pos hset]; exact .inl ⟨hv, .inr (.inr (.inl ⟨not_ok_sw (by decide), rfl⟩))⟩
        | io h _ b =>
          rw [if_neg (by simp), if_pos hset]
          refine .inl ⟨hv, .inr (.inr (.inr ⟨not_ok_sw (by decide), ?_, rfl, rfl⟩))⟩
          rcases h with h | h
          · exact .inr (by simp [sess, h])
          · exact .inl h
        | clear o ho hq => rw [if_neg (by simp), if_pos hset]; exact .inl ⟨hv, .inl ⟨rfl, hq, rfl⟩⟩
        | set o ho k c hq => rw [if_neg (by simp), if_pos hset]; exact .inl ⟨hv, .inr (.inl ⟨rfl, k, c, hq, rfl⟩)⟩
      | false =>
        have hi : i.c.ins = 0x03 := hset
        have hstep : step x s (.apdu i) env = (s, .reply (.sw SW.security)) := by
          have : runCmd (process x i) s.flash s.ram env = (s.flash, s.ram, .done (.sw SW.security)) := by
            have hw : wp A (process x i) (fun a f' r' => f' = s.flash ∧ r' = s.ram ∧ a = .sw SW.security)
                (fun a f' r' => f' = s.flash ∧ r' = s.ram ∧ a = .sw SW.security) (fun _ _ => False) s.flash s.ram := by
              unfold process
              apply wp_bind; apply wp_get
              simp only [hv, hi]
              exact wp_throw ⟨rfl, rfl, rfl⟩
            have := runCmd_of_wp (P := fun o f' r' => f' = s.flash ∧ r' = s.ram ∧ o = .done (.sw SW.security)) 
              (wp_mono hw (fun _ _ _ h => ⟨h.1, h.2.1, by rw [h.2.2]⟩) (fun _ _ _ h => ⟨h.1, h.2.1, by rw [h.2.2]⟩)
                (fun _ _ h => h.elim)) he
            revert this
            rcases runCmd (process x i) s.flash s.ram env with ⟨f', r', o⟩
            rintro ⟨rfl, rfl, rfl⟩
            rfl
          simp only [step, exec, this]
        rw [hstep, if_neg (by simp), if_pos hset]
        exact .inr ⟨hv, rfl, rfl⟩
    · rw [if_neg hset]
      by_cases hval : IsValidate i
      · obtain ⟨o, f', r', h, hs⟩ := run_validate (x := x) hval s he
        rw [hs, if_pos hval]
        cases h with
        | cut => simp only [if_pos]; rfl
        | p12 => rw [if_neg (by simp)]; exact .inr (.inr ⟨not_ok_sw (by decide), rfl⟩)
        | bad sw h => rw [if_neg (by simp)]; exact .inr (.inr ⟨not_ok_sw h, rfl⟩)
        | io => rw [if_neg (by simp)]; exact .inr (.inr ⟨not_ok_sw (by decide), rfl⟩)
        | unset => rw [if_neg (by simp)]; exact .inr (.inr ⟨not_ok_sw (by decide), rfl⟩)
        | wrong k resp c hk hne hq hm =>
          rw [if_neg (by simp)]; exact .inr (.inl ⟨k, resp, c, hk, hne, hq, fun h => hm h.symm, rfl, rfl⟩)
        | right k c hk hne hq => rw [if_neg (by simp)]; exact .inl ⟨k, c, hk, hne, hq, rfl, rfl⟩
      · rw [if_neg hval]
        by_cases hsel : IsSelect i
        · obtain ⟨o, f', r', h, hs⟩ := run_select (x := x) hsel s he
          rw [hs, if_pos hsel]
          cases h with
          | cut => simp only [if_pos]; rfl
          | bad d sw h => rw [if_neg (by simp)]; exact .inr (.inr ⟨not_ok_sw h, rfl⟩)
          | opened o hd ho hk hh =>
            rw [if_neg (by simp)]; exact .inl ⟨by simp [sess, ho, hk], ⟨_, rfl⟩, rfl⟩
          | locked o hd k ho hk hne hh =>
            rw [if_neg (by simp)]; exact .inr (.inl ⟨k, by simp [sess, ho, hk], hne, ⟨hd, rfl⟩, rfl⟩)
        · rw [if_neg hsel]
          rw [show step x s (.apdu i) env = exec (process x i) s env from rfl]
          rcases exec_same (process_code (x := x) hset hval hsel) (process_sess hset hval hsel) s env with ⟨h1, h2⟩ | ⟨h1, h2⟩
          · rw [if_pos h1]; exact h2
          · rw [if_neg h1]; exact h2
  | touch long =>
    have h := step_eff hx s (.touch long) he
    generalize step x s (.touch long) env = st at h
    obtain ⟨s', out⟩ := st
    simp only at h
    unfold SessStep
    simp only
    cases h with
    | touchCut => simp only [if_pos]; rfl
    | touch _ b f' r' h =>
      rw [if_neg (by simp)]
      cases h with
      | off => rfl
      | static => rfl
      | fails => rfl
      | hotp n e o j q c h ho hj hn ht hc _ hf =>
        rcases hf with rfl | ⟨_, rfl⟩
        · unfold sess; simp only [setChal, ho]; rfl
        · rfl
  | passRead =>
    unfold SessStep
    rw [show step x s .passRead env = exec passRead s env from rfl]
    simp only
    rcases exec_same passRead_code passRead_sess s env with ⟨h1, h2⟩ | ⟨h1, h2⟩
    · rw [if_pos h1]; exact h2
    · rw [if_neg h1]; exact h2
  | passWrite c =>
    unfold SessStep
    rw [show step x s (.passWrite c) env = exec (passWrite c) s env from rfl]
    simp only
    rcases exec_same (passWrite_code (c := c)) passWrite_sess s env with ⟨h1, h2⟩ | ⟨h1, h2⟩
    · rw [if_pos h1]; exact h2
    · rw [if_neg h1]; exact h2
  | passInstall b =>
    unfold SessStep
    rw [show step x s (.passInstall b) env = exec (passInstall b) s env from rfl]
    simp only
    rcases exec_same (passInstall_code (b := b)) passInstall_sess s env with ⟨h1, h2⟩ | ⟨h1, h2⟩
    · rw [if_pos h1]; exact h2
    · rw [if_neg h1]; exact h2
  | install reset rnd =>
    let P : Outcome Reply → Flash → Ram → Prop := fun o f' r' =>
      (f'.oath.bind (·.key) = s.flash.oath.bind (·.key) ∨
        (f'.oath.bind (·.key) = some [] ∧ (reset = true ∨ s.flash.oath.bind (·.key) = none ∨ A .fail))) ∧
      (reset = true → o = .done (.sw SW.ok) → f'.oath.bind (·.key) = some []) ∧ r' = poweroff s.ram
    have h := runCmd_of_wp (P := fun o f' r' => P o f' r' ∨ (o = .cut ∧ ∃ r'', P .cut f' r''))
      (wp_mono (install_code (A := A) (f := s.flash) (r := s.ram) (reset := reset) (rnd := rnd))
        (fun _ _ _ h => .inl h) (fun _ _ _ h => .inl h) (fun _ _ h => .inr ⟨rfl, h⟩)) he
    obtain ⟨f', r', o, hr⟩ : ∃ f' r' o, runCmd (install reset rnd) s.flash s.ram env = (f', r', o) := ⟨_, _, _, rfl⟩
    rw [hr] at h
    cases o with
    | cut =>
      have hs : step x s (.install reset rnd) env = (⟨f', Ram.init⟩, .cut) := by simp only [step, exec, hr]
      rw [hs]
      have h1 : P .cut f' r' ∨ ∃ r'', P .cut f' r'' := by
        rcases h with h | ⟨_, h⟩
        · exact .inl h
        · exact .inr h
      rcases h1 with ⟨h1, _, _⟩ | ⟨_, h1, _, _⟩
      · exact ⟨rfl, (if_pos rfl).symm ▸ rfl, h1, fun _ h => (by cases h)⟩
      · exact ⟨rfl, (if_pos rfl).symm ▸ rfl, h1, fun _ h => (by cases h)⟩
    | done a =>
      have hs : step x s (.install reset rnd) env = (⟨f', r'⟩, .reply a) := by simp only [step, exec, hr]
      rw [hs]
      rcases h with ⟨h1, h2, h3⟩ | ⟨h, _⟩
      · replace h3 : r' = poweroff s.ram := h3
        subst h3
        refine ⟨rfl, ?_, h1, fun hr h => h2 hr (by cases h; rfl)⟩
        rw [if_neg (by simp)]; rfl
      · cases h
  | powerOff => exact ⟨rfl, rfl⟩
  | boot => exact ⟨rfl, rfl⟩

end Verif.Oath
