import Verif.Lemmas.CardHist
import Verif.Spec.CardUse
/-
From what happened to an applet to what happened to the card.
-/
namespace Verif.Card
open Spec.Card
open Apdu (Capdu Rapdu Applet)

variable {x : Ext}

theorem since_append {ε : Type} {P Q : ε → Prop} {a b : List ε} (h : Since P Q (a ++ b)) :
    (∃ e ∈ a, P e) ∨ Since P Q b ∧ ∀ e ∈ a, ¬ Q e := by
  induction a with
  | nil => exact .inr ⟨h, fun _ h => by cases h⟩
  | cons e a ih =>
    rcases h with h | ⟨h, hq⟩
    · exact .inl ⟨e, .head _, h⟩
    · rcases ih h with ⟨e', he, hp⟩ | ⟨hb, ha⟩
      · exact .inl ⟨e', .tail _ he, hp⟩
      · refine .inr ⟨hb, fun e' he => ?_⟩
        rcases List.mem_cons.mp he with rfl | he
        · exact hq
        · exact ha e' he

theorem since_mono {ε : Type} {P P' Q Q' : ε → Prop} {l : List ε} (hp : ∀ e, P e → P' e) (hq : ∀ e, Q' e → Q e)
    (h : Since P Q l) : Since P' Q' l := by
  induction l with
  | nil => exact h
  | cons e l ih =>
    rcases h with h | ⟨h, hn⟩
    · exact .inl (hp _ h)
    · exact .inr ⟨ih h, fun h => hn (hq _ h)⟩

/-- Since, from the log of an applet to that of the card. -/
theorem split_since {σ ο ω : Type} {F : Face σ ο ω} {L : List (St × Op × Out)} {l : List (σ × ο × ω)}
    (h : Split F L l) {P Q : σ × ο × ω → Prop} {P' Q' : St × Op × Out → Prop}
    (hP : ∀ s op o c, Does F s op o c → ∀ e ∈ c, P e → P' (s, op, o))
    (hQ : ∀ s op o c, Does F s op o c → Q' (s, op, o) → ∃ e ∈ c, Q e)
    (hs : Since P Q l) : Since P' Q' L := by
  induction h with
  | nil => exact hs
  | cons h hd ih =>
    rcases since_append hs with ⟨e, he, hp⟩ | ⟨hb, ha⟩
    · exact .inl (hP _ _ _ _ hd e (List.mem_reverse.mp he) hp)
    · refine .inr ⟨ih hb, fun hq => ?_⟩
      obtain ⟨e, he, hq⟩ := hQ _ _ _ _ hd hq
      exact ha e (List.mem_reverse.mpr he) hq

/-! ### The current applet -/

/-- Where a command goes. -/
def RouteOk (d : Disp) : Route → Prop
  | .local d' _ => d'.current = d.current
  | .call d' s a _ _ => d'.current = some a ∧ (s = false → d.current = some a)

theorem routeTo_ok {d d0 : Disp} {sw : Bool} {c : Capdu} (hl : d.current = none → d.current = d0.current)
    (h : sw = false → d.current = d0.current) : RouteOk d0 (routeTo d sw c) := by
  unfold routeTo
  cases hc : d.current with
  | none => exact hl hc
  | some a => exact ⟨hc, fun hs => (h hs).symm.trans hc⟩

theorem C.bind_ok {α β : Type} {m : C α} {g : α → C β} {b : β} (h : (m >>= g) = .ok b) :
    ∃ a, m = .ok a ∧ g a = .ok b := by
  cases m with
  | error e => cases h
  | ok a => exact ⟨a, rfl, h⟩

theorem routeLast_ok {n : Bool} {d : Disp} {rt : Route} (h : routeLast n d = .ok rt) : RouteOk d rt := by
  unfold routeLast at h
  dsimp only at h
  split at h
  · obtain ⟨⟨ch, out⟩, _, h⟩ := C.bind_ok h
    cases h
    exact rfl
  · split at h
    · split at h
      · cases h; exact rfl
      · rename_i a _
        split at h
        · cases h; exact rfl
        · cases h
          exact routeTo_ok (fun h => by cases h) fun h => by
            have := of_decide_eq_false h
            exact Classical.not_not.mp this
    · cases h
      exact routeTo_ok (fun h => rfl) fun h => rfl

theorem route_ok {n : Bool} {d : Disp} {c : Capdu} {rt : Route} (h : route n d c = .ok rt) : RouteOk d rt := by
  unfold route at h
  dsimp only at h
  cases hm : (c.cla == 0xFF && c.ins == 0xEE && c.p1 == 0xFF && c.p2 == 0xEE) with
  | true => rw [hm] at h; cases h; exact rfl
  | false =>
    rw [hm, if_neg (by decide)] at h
    generalize hoff : (if d.current == some .piv then Apdu.pivOffload d.pivState c.ins else (d.pivState, false)) = off at h
    obtain ⟨ps, b⟩ := off
    cases b with
    | true =>
      cases h
      cases hb : d.current == some .piv with
      | true => exact ⟨eq_of_beq hb, fun _ => eq_of_beq hb⟩
      | false => rw [hb] at hoff; cases hoff
    | false =>
      rw [if_neg (by intro h; cases h)] at h
      obtain ⟨⟨ch, res⟩, _, h⟩ := C.bind_ok h
      cases res with
      | notLast => cases h; exact rfl
      | overflow => cases h; exact rfl
      | last => exact routeLast_ok (d := { d with pivState := ps, chain := ch }) h

theorem finish_current {d d' : Disp} {c : Capdu} {b : Bool} {r out : Rapdu} (h : finish d c b r = .ok (d', out)) :
    d'.current = d.current := by
  unfold finish at h
  cases b with
  | false => cases h; rfl
  | true =>
    rw [if_pos rfl] at h
    obtain ⟨buf, _, h⟩ := C.bind_ok h
    obtain ⟨⟨ch, o⟩, _, h⟩ := C.bind_ok h
    cases h
    rfl

/-- After an operation that is no power cycle and no switch, an applet can only be the current one if it was before and
got the command. -/
theorem stays {s : St} {op : Op} {env : Env} {r' : Ram} {d' : Disp} {a : Applet}
    (hr : (step x s op env).1.ram = some (r', d')) (ha : d'.current = some a)
    (hp : s.ram ≠ none → op ≠ .power)
    (hk : s.ram ≠ none → ∀ k, (step x s op env).2.call = some k → k.switch = false) :
    ¬ Leaves a (s, op, (step x s op env).2) ∧ ∃ r d, s.ram = some (r, d) ∧ d.current = some a := by
  obtain ⟨f, ro⟩ := s
  cases op with
  | boot rn =>
    exfalso
    unfold step at hr
    dsimp only at hr
    split at hr
    · cases hr
    · cases hr; cases ha
  | power =>
    cases ro with
    | none => cases hr
    | some rd => exact absurd rfl (hp (by intro h; cases h))
  | apdu c i =>
    cases ro with
    | none => cases hr
    | some rd =>
      obtain ⟨r, d⟩ := rd
      have e : step x ⟨f, some (r, d)⟩ (.apdu c i) env = match route r.cfg.ndef d c with
        | .error _ => (⟨f, some (r, d)⟩, ⟨.ub, none⟩)
        | .ok rt => handle x f r i rt env := rfl
      replace hk := hk (by intro h; cases h)
      rw [e] at hr hk ⊢
      cases hrt : route r.cfg.ndef d c with
      | error u =>
        rw [hrt] at hr hk
        cases hr
        refine ⟨?_, _, _, rfl, ha⟩
        rintro (h | ⟨_, h⟩ | h | ⟨k, h, _⟩) <;> cases h
      | ok rt =>
        rw [hrt] at hr hk
        dsimp only at hr hk ⊢
        have ho := route_ok hrt
        cases rt with
        | «local» d1 a1 =>
          cases hr
          refine ⟨?_, _, _, rfl, ho.symm.trans ha⟩
          rintro (h | ⟨_, h⟩ | h | ⟨k, h, _⟩) <;> cases h
        | call d1 sw a1 c1 ch =>
          unfold handle at hr hk ⊢
          dsimp only at hr hk ⊢
          generalize deliver x i a1 c1 _ = res at hr hk ⊢
          obtain ⟨o, w⟩ := res
          have fin : ∀ {r2 : Ram} {d2 : Disp} {host : Host} {ans : Option Reply}, d2.current = d1.current →
              some (r2, d2) = some (r', d') → host ≠ .cut →
              (∀ k, some (⟨sw, a1, c1, ans⟩ : Call) = some k → k.switch = false) →
              ¬ Leaves a (⟨f, some (r, d)⟩, Op.apdu c i, ⟨host, some ⟨sw, a1, c1, ans⟩⟩) ∧
                ∃ r0 d0, some (r, d) = some (r0, d0) ∧ d0.current = some a := by
            intro r2 d2 host ans h2 he hh hs
            cases he
            have h3 : a1 = a := by
              have := ho.1.symm.trans (h2.symm.trans ha)
              cases this
              rfl
            have h4 := hs _ rfl
            refine ⟨?_, r, d, rfl, h3 ▸ ho.2 h4⟩
            rintro (h | ⟨_, h⟩ | h | ⟨k, h, h'⟩)
            · cases h
            · cases h
            · exact hh h
            · cases h
              rcases h' with h' | h'
              · rw [show sw = false from h4] at h'; cases h'
              · exact h' h3
          cases o with
          | none => cases hr
          | some rep =>
            cases rep with
            | ub u => exact fin rfl hr (by intro h; cases h) hk
            | resp data sw' =>
              dsimp only at hr hk ⊢
              cases hf : finish d1 c1 ch ⟨data, UInt16.ofNat sw'⟩ with
              | error e => rw [hf] at hr hk; exact fin rfl hr (by intro h; cases h) hk
              | ok p =>
                obtain ⟨d2, out⟩ := p
                rw [hf] at hr hk
                exact fin (finish_current hf) hr (by intro h; cases h) hk
  | cbor q i =>
    cases ro with
    | none => cases hr
    | some rd =>
      obtain ⟨r, d⟩ := rd
      have e : step x ⟨f, some (r, d)⟩ (.cbor q i) env =
        execCtap (shows (Ctap.process x.ctap i q) .resp) f r d env := rfl
      rw [e] at hr ⊢
      unfold execCtap at hr ⊢
      generalize FsM.zoom _ _ _ _ = res at hr ⊢
      obtain ⟨o, w⟩ := res
      cases o with
      | none => cases hr
      | some o =>
        cases hr
        refine ⟨?_, _, _, rfl, ha⟩
        rintro (h | ⟨_, h⟩ | h | ⟨k, h, _⟩) <;> cases h
  | u2f q i =>
    cases ro with
    | none => cases hr
    | some rd =>
      obtain ⟨r, d⟩ := rd
      have e : step x ⟨f, some (r, d)⟩ (.u2f q i) env =
        execCtap (shows (Ctap.u2f x.ctap i q) .u2f) f r d env := rfl
      rw [e] at hr ⊢
      unfold execCtap at hr ⊢
      generalize FsM.zoom _ _ _ _ = res at hr ⊢
      obtain ⟨o, w⟩ := res
      cases o with
      | none => cases hr
      | some o =>
        cases hr
        refine ⟨?_, _, _, rfl, ha⟩
        rintro (h | ⟨_, h⟩ | h | ⟨k, h, _⟩) <;> cases h
  | touch long =>
    cases ro with
    | none => cases hr
    | some rd =>
      obtain ⟨r, d⟩ := rd
      unfold step at hr ⊢
      dsimp only at hr ⊢
      generalize FsM.zoom _ _ _ _ = res at hr ⊢
      obtain ⟨o, w⟩ := res
      rcases o with _ | (_ | _)
      · cases hr
      all_goals
        cases hr
        refine ⟨?_, _, _, rfl, ha⟩
        rintro (h | ⟨_, h⟩ | h | ⟨k, h, _⟩) <;> cases h

/-- The applet gets a command without a switch: it was the current one. -/
theorem handed_current {s : St} {op : Op} {env : Env} {k : Call} (h : (step x s op env).2.call = some k) :
    (∃ c i, op = .apdu c i) ∧ (k.switch = false → ∃ r d, s.ram = some (r, d) ∧ d.current = some k.to) := by
  obtain ⟨f, ro⟩ := s
  cases op with
  | boot rn => unfold step at h; dsimp only at h; split at h <;> cases h
  | power => cases ro <;> cases h
  | touch long =>
    cases ro with
    | none => cases h
    | some rd =>
      unfold step at h
      dsimp only at h
      generalize FsM.zoom _ _ _ _ = res at h
      obtain ⟨o, w⟩ := res
      rcases o with _ | (_ | _) <;> cases h
  | cbor q i =>
    cases ro with
    | none => cases h
    | some rd =>
      have e : step x ⟨f, some rd⟩ (.cbor q i) env =
        execCtap (shows (Ctap.process x.ctap i q) .resp) f rd.1 rd.2 env := rfl
      rw [e] at h
      unfold execCtap at h
      generalize FsM.zoom _ _ _ _ = res at h
      obtain ⟨o, w⟩ := res
      cases o <;> cases h
  | u2f q i =>
    cases ro with
    | none => cases h
    | some rd =>
      have e : step x ⟨f, some rd⟩ (.u2f q i) env =
        execCtap (shows (Ctap.u2f x.ctap i q) .u2f) f rd.1 rd.2 env := rfl
      rw [e] at h
      unfold execCtap at h
      generalize FsM.zoom _ _ _ _ = res at h
      obtain ⟨o, w⟩ := res
      cases o <;> cases h
  | apdu c i =>
    cases ro with
    | none => cases h
    | some rd =>
      obtain ⟨r, d⟩ := rd
      have e : step x ⟨f, some (r, d)⟩ (.apdu c i) env = match route r.cfg.ndef d c with
        | .error _ => (⟨f, some (r, d)⟩, ⟨.ub, none⟩)
        | .ok rt => handle x f r i rt env := rfl
      rw [e] at h
      cases hrt : route r.cfg.ndef d c with
      | error u => rw [hrt] at h; cases h
      | ok rt =>
        rw [hrt] at h
        dsimp only at h
        have ho := route_ok hrt
        cases rt with
        | «local» d1 a1 => cases h
        | call d1 sw a1 c1 ch =>
          have hc : k.switch = sw ∧ k.to = a1 := by
            unfold handle at h
            dsimp only at h
            generalize deliver x i a1 c1 _ = res at h
            obtain ⟨o, w⟩ := res
            rcases o with _ | (_ | _)
            · cases h; exact ⟨rfl, rfl⟩
            · dsimp only at h
              split at h <;> cases h <;> exact ⟨rfl, rfl⟩
            · cases h; exact ⟨rfl, rfl⟩
          exact ⟨⟨c, i, rfl⟩, fun hk => ⟨r, d, rfl, hc.2 ▸ ho.2 (hc.1 ▸ hk)⟩⟩

/-- The entries of a log in which nothing but `Q` ends, seen from a later time at which the applet is the current one: the
applet was not left. -/
theorem since_stays {P Q : St × Op × Out → Prop} {a : Applet} (hp : ∀ s o, s.ram ≠ none → Q (s, .power, o))
    (hk : ∀ s c i o k, s.ram ≠ none → o.call = some k → k.switch = true → Q (s, .apdu c i, o)) (H : List (Op × Env)) (s0 : St)
    {r : Ram} {d : Disp} (hr : (run x s0 [] H).1.ram = some (r, d)) (ha : d.current = some a)
    (hs : Since P Q (run x s0 [] H).2) : Since P (fun e => Leaves a e ∨ Q e) (run x s0 [] H).2 := by
  have key : ∀ n (H : List (Op × Env)), H.length = n → ∀ {r : Ram} {d : Disp},
      (run x s0 [] H).1.ram = some (r, d) → d.current = some a → Since P Q (run x s0 [] H).2 →
      Since P (fun e => Leaves a e ∨ Q e) (run x s0 [] H).2 := by
    intro n
    induction n with
    | zero =>
      intro H hn r d _ _ hs
      rw [List.length_eq_zero_iff.mp hn] at hs
      exact absurd hs id
    | succ n ih =>
      intro H hn r d hr ha hs
      obtain ⟨H', e, rfl⟩ : ∃ H' e, H = H' ++ [e] := by
        have hne : H ≠ [] := by intro h; rw [h] at hn; cases hn
        exact ⟨H.dropLast, H.getLast hne, (List.dropLast_concat_getLast hne).symm⟩
      rw [card_run_append] at hr hs ⊢
      obtain ⟨op, env⟩ := e
      have hl : H'.length = n := by
        rw [List.length_append] at hn
        exact Nat.succ.inj hn
      have e1 : ∀ s L, run x s L [(op, env)] = ((step x s op env).1, (s, op, (step x s op env).2) :: L) :=
        fun _ _ => rfl
      rw [e1] at hr hs ⊢
      rcases hs with hs | ⟨hs, hq⟩
      · exact .inl hs
      · have := stays hr ha (fun hn h => hq (h ▸ hp _ _ hn)) (fun hon k hc => by
          cases hsw : k.switch with
          | false => rfl
          | true =>
            obtain ⟨c, i, e⟩ := (handed_current hc).1
            subst e
            exact absurd (hk _ c i _ k hon hc hsw) hq)
        obtain ⟨h1, r0, d0, h2, h3⟩ := this
        refine .inr ⟨ih H' hl h2 h3 hs, ?_⟩
        rintro (h | h)
        · exact h1 h
        · exact hq h
  exact key _ H rfl hr ha hs

/-- While the device is on, what has not happened since the last complete restart has not happened since the last
loss of power. -/
theorem since_on {P Q : St × Op × Out → Prop} (hb : ∀ s r o, o.host ≠ .cut → Q (s, .boot r, o)) (H : List (Op × Env))
    (s0 : St) (hr : (run x s0 [] H).1.ram ≠ none) (hs : Since P Q (run x s0 [] H).2) :
    Since P (fun e => Restarted e ∨ Q e) (run x s0 [] H).2 := by
  have cutOff : ∀ (s : St) op env, (step x s op env).2.host = .cut → (step x s op env).1.ram = none := by
    intro s op env h
    obtain ⟨f, ro⟩ := s
    cases op with
    | boot rn =>
      unfold step at h ⊢
      dsimp only at h ⊢
      split at h
      · rfl
      · cases h
    | power => cases ro <;> cases h
    | touch long =>
      cases ro with
      | none => cases h
      | some rd =>
        unfold step at h ⊢
        dsimp only at h ⊢
        generalize FsM.zoom _ _ _ _ = res at h ⊢
        obtain ⟨o, w⟩ := res
        rcases o with _ | (_ | _)
        · rfl
        all_goals cases h
    | cbor q i =>
      cases ro with
      | none => cases h
      | some rd =>
        have e : step x ⟨f, some rd⟩ (.cbor q i) env =
          execCtap (shows (Ctap.process x.ctap i q) .resp) f rd.1 rd.2 env := rfl
        rw [e] at h ⊢
        unfold execCtap at h ⊢
        generalize FsM.zoom _ _ _ _ = res at h ⊢
        obtain ⟨o, w⟩ := res
        cases o with
        | none => rfl
        | some o => cases h
    | u2f q i =>
      cases ro with
      | none => cases h
      | some rd =>
        have e : step x ⟨f, some rd⟩ (.u2f q i) env =
          execCtap (shows (Ctap.u2f x.ctap i q) .u2f) f rd.1 rd.2 env := rfl
        rw [e] at h ⊢
        unfold execCtap at h ⊢
        generalize FsM.zoom _ _ _ _ = res at h ⊢
        obtain ⟨o, w⟩ := res
        cases o with
        | none => rfl
        | some o => cases h
    | apdu c i =>
      cases ro with
      | none => cases h
      | some rd =>
        obtain ⟨r, d⟩ := rd
        have e : step x ⟨f, some (r, d)⟩ (.apdu c i) env = match route r.cfg.ndef d c with
          | .error _ => (⟨f, some (r, d)⟩, ⟨.ub, none⟩)
          | .ok rt => handle x f r i rt env := rfl
        rw [e] at h ⊢
        cases hrt : route r.cfg.ndef d c with
        | error u => rw [hrt] at h; cases h
        | ok rt =>
          rw [hrt] at h
          dsimp only at h ⊢
          cases rt with
          | «local» d1 a1 => cases h
          | call d1 sw a1 c1 ch =>
            unfold handle at h ⊢
            dsimp only at h ⊢
            generalize deliver x i a1 c1 _ = res at h ⊢
            obtain ⟨o, w⟩ := res
            rcases o with _ | (_ | _)
            · rfl
            · dsimp only at h
              split at h <;> cases h
            · cases h
  have offStays : ∀ (s : St) op env, s.ram = none → (∀ r, op ≠ .boot r) → (step x s op env).1.ram = none := by
    intro s op env h hn
    obtain ⟨f, ro⟩ := s
    have h : ro = none := h
    subst h
    cases op with
    | boot r => exact absurd rfl (hn r)
    | apdu | power | touch | cbor | u2f => rfl
  have key : ∀ n (H : List (Op × Env)), H.length = n → (run x s0 [] H).1.ram ≠ none → Since P Q (run x s0 [] H).2 →
      Since P (fun e => Restarted e ∨ Q e) (run x s0 [] H).2 := by
    intro n
    induction n with
    | zero =>
      intro H hn _ hs
      rw [List.length_eq_zero_iff.mp hn] at hs
      exact absurd hs id
    | succ n ih =>
      intro H hn hr hs
      obtain ⟨H', e, rfl⟩ : ∃ H' e, H = H' ++ [e] := by
        have hne : H ≠ [] := by intro h; rw [h] at hn; cases hn
        exact ⟨H.dropLast, H.getLast hne, (List.dropLast_concat_getLast hne).symm⟩
      rw [card_run_append] at hr hs ⊢
      obtain ⟨op, env⟩ := e
      have hl : H'.length = n := by
        rw [List.length_append] at hn
        exact Nat.succ.inj hn
      have e1 : ∀ s L, run x s L [(op, env)] = ((step x s op env).1, (s, op, (step x s op env).2) :: L) :=
        fun _ _ => rfl
      rw [e1] at hr hs ⊢
      rcases hs with hs | ⟨hs, hq⟩
      · exact .inl hs
      · have hc : (step x (run x s0 [] H').1 op env).2.host ≠ .cut := fun h => hr (cutOff _ _ _ h)
        have hnb : ∀ r, op ≠ .boot r := by
          intro r e
          subst e
          exact hq (hb _ _ _ hc)
        refine .inr ⟨ih H' hl (fun h => hr (offStays _ _ _ h hnb)) hs, ?_⟩
        rintro ((⟨r, h⟩ | h) | h)
        · exact hnb r h
        · exact hc h
        · exact hq h
  exact key _ H rfl hr hs

/-! ### The last operation of an applet -/

theorem runG_cons {σ ο ω : Type} {step : σ → ο → Env → σ × ω} {s a : σ} {op : ο} {o : ω} {l : List (σ × ο × ω)}
    {hp : List (ο × Env)} (h : (runG step s [] hp).2 = (a, op, o) :: l) :
    ∃ h0 env, hp = h0 ++ [(op, env)] ∧ (runG step s [] h0).1 = a ∧ (runG step s [] h0).2 = l ∧
      (step a op env).2 = o := by
  have hne : hp ≠ [] := by intro e; rw [e] at h; cases h
  refine ⟨hp.dropLast, (hp.getLast hne).2, ?_⟩
  have e := List.dropLast_concat_getLast hne
  generalize hp.dropLast = h0 at e
  generalize hp.getLast hne = p at e
  obtain ⟨op', env⟩ := p
  subst e
  rw [runG_append] at h
  have h : ((runG step s [] h0).1, op', (step (runG step s [] h0).1 op' env).2) :: (runG step s [] h0).2 =
    (a, op, o) :: l := h
  cases h
  exact ⟨rfl, rfl, rfl, rfl⟩

theorem split_cons {σ ο ω : Type} {F : Face σ ο ω} {e : St × Op × Out} {L : List (St × Op × Out)}
    {l : List (σ × ο × ω)} (h : Split F (e :: L) l) :
    ∃ c l', l = c.reverse ++ l' ∧ Split F L l' ∧ Does F e.1 e.2.1 e.2.2 c := by
  cases h with
  | cons h hd => exact ⟨_, _, rfl, h, hd⟩

end Verif.Card
