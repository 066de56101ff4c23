import Verif.Lemmas.PgpStep
/-
Properties of the OpenPGP applet: PW1 and PW3 (C35-C37).
-/
set_option linter.unusedSimpArgs false
namespace Verif.Pgp
open Cmd Verif.Spec.Pgp Verif.KeyFile

variable {A : Fault → Prop} {x : Ext} {i : In} {f f' : Flash} {r r' : Ram} {o : Outcome Reply}

/-! ### Helpers about replies -/

theorem ok_sw {a : Reply} {sw : Nat} (h : Ok (.reply a)) (ha : a = .sw sw) : sw = 0x9000 := by
  obtain ⟨d, h⟩ := h
  subst ha
  injection h with h; injection h with _ h

theorem not_ok_of_bad (h : Bad o) : ¬ Ok (outOf o) := by
  rintro ⟨d, hd⟩
  cases o with
  | cut => cases hd
  | done a =>
    have : a = .resp d 0x9000 := by injection hd
    exact bad_not_ok h d (by rw [this])

theorem not_given_of_bad (h : Bad o) : ¬ Given (outOf o) := by
  rintro ⟨d, sw, hd, hg⟩
  rcases h with ⟨u, rfl⟩ | ⟨sw', hn, rfl⟩
  · cases hd
  · have h : Reply.sw sw' = .resp d sw := by injection hd
    have h : Reply.resp [] sw' = .resp d sw := h
    injection h with h1 h2
    subst h1; subst h2
    rcases hg with h | h
    · exact hn h
    · exact h rfl

theorem not_answered {sw : Nat} (h : sw ∈ [0x6E00, 0x6A86, 0x6285, 0x6900]) : ¬ Answered (outOf (.done (.sw sw))) := by
  rintro ⟨d, sw', hd, hn⟩
  have h' : Reply.resp [] sw = .resp d sw' := by injection hd
  injection h' with _ h2
  subst h2
  exact hn h

theorem cut_not_ok : ¬ Ok (outOf .cut) := by rintro ⟨d, h⟩; cases h

@[simp] theorem setR_m81 {w : Which} {q : Pin.Ram} : ((partR w).set q r).m81 = r.m81 := by cases w <;> rfl
@[simp] theorem setR_m82 {w : Which} {q : Pin.Ram} : ((partR w).set q r).m82 = r.m82 := by cases w <;> rfl
@[simp] theorem setR_touch {w : Which} {q : Pin.Ram} : ((partR w).set q r).lastTouch = r.lastTouch := by cases w <;> rfl
theorem setR_pw3 {w : Which} {q : Pin.Ram} (h : w ≠ .pw3) : ((partR w).set q r).pw3 = r.pw3 := by
  cases w <;> first | rfl | exact absurd rfl h

/-! ### What the commands do to the variables -/

/-- The modes and the time of the last touch are not affected. -/
structure Modes (r r' : Ram) : Prop where
  m81 : r'.m81 = r.m81
  m82 : r'.m82 = r.m82
  touch : r'.lastTouch = r.lastTouch

theorem Modes.trans {r1 : Ram} (h : Modes r r1) (h' : Modes r1 r') : Modes r r' :=
  ⟨h'.1.trans h.1, h'.2.trans h.2, h'.3.trans h.3⟩
theorem Modes.set {w : Which} {q : Pin.Ram} : Modes r ((partR w).set q r) := ⟨setR_m81, setR_m82, setR_touch⟩
theorem Same.modes (h : Same r r') : Modes r r' := ⟨h.1, h.2, h.4⟩

theorem first_modes {w : Which} {size : Option Nat} {e : Option Reply} (h : FirstEff A x i w size f r e f' r') :
    Modes r r' := by
  cases h
  exact .set

theorem rest_modes {w : Which} {size : Option Nat} (h : RestEff A x i w size f r o f' r') (ho : o ≠ .cut) :
    Modes r r' := by
  cases h with
  | ub => exact ⟨rfl, rfl, rfl⟩
  | short => exact ⟨rfl, rfl, rfl⟩
  | upd => exact .set
  | cut => exact absurd rfl ho

theorem ch_modes {w w' : Which} (h : ChEff A x i w w' f r o f' r') (ho : o ≠ .cut) : Modes r r' := by
  cases h with
  | cut => exact absurd rfl ho
  | stop size hs e f' r' h => exact first_modes h
  | upd size hs f1 r1 h o f' r' h' => exact (first_modes h).trans (rest_modes h' ho)

theorem first_pw3 {w : Which} {size : Option Nat} {e : Option Reply} (h : FirstEff A x i w size f r e f' r')
    (hw : w ≠ .pw3) : r'.pw3 = r.pw3 := by
  cases h
  exact setR_pw3 hw

theorem rest_pw3 {w : Which} {size : Option Nat} (h : RestEff A x i w size f r o f' r') (ho : o ≠ .cut)
    (hw : w ≠ .pw3) : r'.pw3 = r.pw3 := by
  cases h with
  | ub => rfl
  | short => rfl
  | upd => exact setR_pw3 hw
  | cut => exact absurd rfl ho

theorem ch_pw3 {w w' : Which} (h : ChEff A x i w w' f r o f' r') (ho : o ≠ .cut) (hw : w ≠ .pw3) (hw' : w' ≠ .pw3) :
    r'.pw3 = r.pw3 := by
  cases h with
  | cut => exact absurd rfl ho
  | stop size hs e f' r' h => exact first_pw3 h hw
  | upd size hs f1 r1 h o f' r' h' => rw [rest_pw3 h' ho hw', first_pw3 h hw]

theorem rrc_modes (h : RrcEff A x i f r o f' r') (ho : o ≠ .cut) : Modes r r' ∧ r'.pw3 = r.pw3 := by
  cases h with
  | bad => exact ⟨⟨rfl, rfl, rfl⟩, rfl⟩
  | rc hp1 hp2 hz o f' r' h => exact ⟨ch_modes h ho, ch_pw3 h ho (by decide) (by decide)⟩
  | admin hp1 hp2 hv o f' r' h => exact ⟨rest_modes h ho, rest_pw3 h ho (by decide)⟩
  | cut => exact absurd rfl ho

theorem adm_same {P : Outcome Reply → Flash → Ram → Prop} (h : AdmEff f r P o f' r') (ho : o ≠ .cut)
    (hP : ∀ o f' r', P o f' r' → o ≠ .cut → Same r r') : Same r r' := by
  cases h with
  | no => exact .rfl'
  | yes h o f' r' h' => exact hP _ _ _ h' ho

theorem put_same (h : PutEff A i f r o f' r') (ho : o ≠ .cut) : Same r r' := by
  cases h with
  | done a f' r' h => exact h.2.1
  | cut => exact absurd rfl ho

theorem imp_same (h : ImpEff A i f r o f' r') (ho : o ≠ .cut) : Same r r' := by
  cases h with
  | none o h r' hr => rw [hr ho]; exact .rfl'
  | key k hk o f' r' hr h => rw [hr ho]; exact .rfl'

theorem gen_same (h : GenEff A i f r o f' r') (ho : o ≠ .cut) : Same r r' := by
  cases h with
  | none o h r' hr => rw [hr ho]; exact .rfl'
  | read => exact .rfl'
  | key hp k hk o f' r' hr h => rw [hr ho]; exact .rfl'

theorem term_same (h : TermEff A f r o f' r') (ho : o ≠ .cut) : Same r r' := by
  cases h with
  | bad o h r' hr => rw [hr ho]; exact .rfl'
  | done => exact .rfl'

theorem inst_ram (h : InstEff A f r o f' r') (ho : o ≠ .cut) :
    r'.m81 = false ∧ r'.m82 = false ∧ r'.pw3.validated = false ∧ r'.lastTouch = r.lastTouch := by
  cases h with
  | done => exact ⟨rfl, rfl, rfl, rfl⟩
  | fail h f' hm r' hr => rcases hr with rfl | rfl <;> exact ⟨rfl, rfl, rfl, rfl⟩
  | cut => exact absurd rfl ho

theorem boot_ram (h : BootEff A f r o f' r') (ho : o ≠ .cut) :
    r'.m81 = false ∧ r'.m82 = false ∧ r'.pw3.validated = false ∧ r'.lastTouch = r.lastTouch := by
  cases h with
  | nop => exact ⟨rfl, rfl, rfl, rfl⟩
  | inst _ o f' r' h => exact inst_ram h ho
  | cut => exact absurd rfl ho

theorem touching_modes (h : Touching i r r') : r'.m81 = r.m81 ∧ r'.m82 = r.m82 ∧ r'.pw3 = r.pw3 := by
  rcases h with rfl | ⟨_, _, rfl⟩ <;> exact ⟨rfl, rfl, rfl⟩

theorem dec_ram (h : DecEff A x i f r o f' r') (ho : o ≠ .cut) :
    r'.m81 = r.m81 ∧ r'.m82 = r.m82 ∧ r'.pw3 = r.pw3 := by
  cases h with
  | noPin => exact ⟨rfl, rfl, rfl⟩
  | bad hp o h r' hu => exact touching_modes (hu ho)
  | given hp p m h d r' hu => exact touching_modes hu

theorem sign_ram {s : Bool} (h : SignEff A x i s f r o f' r') (ho : o ≠ .cut) : Used i r r' := by
  cases h with
  | noPin => exact .rfl'
  | bad hp o h r' hu => exact hu ho
  | given hp p m h d hd r' hu => exact hu

theorem bad_or_cut_not_given (h : Bad o ∨ o = .cut ∧ A .cut) : ¬ Given (outOf o) := by
  rcases h with h | ⟨rfl, _⟩
  · exact not_given_of_bad h
  · rintro ⟨d, sw, h, _⟩; cases h

theorem ver_shows {w : Which} {data : Bytes} {rc : Pin.Rc} {ctr : Option UInt8} {p : Pin.Flash} {q : Pin.Ram} {pf : Pin.Flash}
    (h : Pin.VerEff A (pinCfg x w) data (UInt8.ofNat data.length) pf (rc, ctr) p q) (hv : q.validated = true) :
    Shows pf data := by
  cases h with
  | length => cases hv
  | io => cases hv
  | blocked => cases hv
  | wrong => cases hv
  | right q c d hp hc hz hl hm hd =>
    exact ⟨q, c, hp, hc, hz, by simpa [Pin.candidate, UInt8.toNat_ofNat'] using hm⟩
  | rightIo q c hp hc hz hl hm =>
    exact ⟨q, c, hp, hc, hz, by simpa [Pin.candidate, UInt8.toNat_ofNat'] using hm⟩

/-! ### C35: signatures need PW1 (81) -/

theorem m81_cmd {r0 : Ram} (h : CEff A x i f r0 o f' r') (ho : o ≠ .cut) (hm : r'.m81 = true) :
    VerifiesPw1 0x81 f (.apdu i) (outOf o) ∨
    (r0.m81 = true ∧ ¬ (i.c.ins = 0x44 ∧ Ok (outOf o)) ∧ ¬ Rechecked 0x81 (.apdu i) (outOf o) ∧
      ¬ (IsSign i ∧ Given (outOf o) ∧ OneShot f)) := by
  have nr : i.c.ins ≠ 0x20 → (i.c.ins ≠ 0x24 ∨ i.c.p2 ≠ 0x81) → ¬ Rechecked 0x81 (.apdu i) (outOf o) := by
    rintro h1 h2 ⟨i', e, h3, _⟩
    injection e with e; subst e
    rcases h3 with h3 | h3
    · exact h1 h3.1
    · rcases h2 with h2 | h2
      · exact h2 h3.1
      · exact h2 h3.2
  cases h with
  | read h hs hd hi a r' hr hb =>
    simp only [List.mem_cons, List.not_mem_nil, or_false, not_or] at h
    refine .inr ⟨hr.m81 ▸ hm, ?_, nr h.1 (.inl h.2.1), fun e => hs e.1⟩
    rintro ⟨e1, e2⟩
    rcases hb with hb | ⟨hb, _⟩
    · exact not_ok_of_bad hb e2
    · exact hb e1
  | cut => exact absurd rfl ho
  | verify h o f' r' he =>
    have n44 : ¬ (i.c.ins = 0x44 ∧ Ok (outOf o)) := fun e => absurd e.1 (by rw [h]; decide)
    have ns : ¬ (IsSign i ∧ Given (outOf o) ∧ OneShot f) := fun e => absurd e.1.1 (by rw [h]; decide)
    have np : i.c.p2 ≠ 0x81 → ¬ Rechecked 0x81 (.apdu i) (outOf o) := by
      rintro h1 ⟨i', e, h3, _⟩
      injection e with e; subst e
      rcases h3 with h3 | h3
      · exact h1 h3.2
      · exact h1 h3.2
    cases he with
    | param =>
      refine .inr ⟨hm, n44, ?_, ns⟩
      rintro ⟨i', e, h3, h4⟩
      exact not_answered (by decide) h4
    | cut => exact absurd rfl ho
    | logout hp2 hp1 =>
      simp only [setR_m81, modeOff] at hm
      by_cases e : i.c.p2 = 0x81
      · rw [if_pos e] at hm; cases hm
      · rw [if_neg e] at hm; exact .inr ⟨hm, n44, np e, ns⟩
    | query hp2 hp1 hl sw hsw =>
      simp only [modeOff] at hm
      by_cases e : i.c.p2 = 0x81
      · rw [if_pos e] at hm; cases hm
      · rw [if_neg e] at hm; exact .inr ⟨hm, n44, np e, ns⟩
    | chk hp2 hp1 hl rc ctr p q hv r' hr =>
      subst hr
      simp only [setR_m81] at hm
      by_cases e : i.c.p2 = 0x81
      · by_cases hok : rc = .ok
        · subst hok
          left
          refine ⟨i, rfl, h, hp1, e, hl, ?_, ⟨[], rfl⟩⟩
          have e' : (partF (pinOf i.c.p2)).get f = f.pw1 := by rw [e]; rfl
          have := ver_shows (data := i.c.data) hv (by cases hv; rfl)
          rwa [e'] at this
        · rw [if_neg hok] at hm
          simp only [modeOff, if_pos e] at hm
          cases hm
      · right
        refine ⟨?_, n44, np e, ns⟩
        split at hm
        · simpa [modeOn, e] using hm
        · simpa [modeOff, e] using hm
  | change h o f' r' he =>
    have n44 : ¬ (i.c.ins = 0x44 ∧ Ok (outOf o)) := fun e => absurd e.1 (by rw [h]; decide)
    have ns : ¬ (IsSign i ∧ Given (outOf o) ∧ OneShot f) := fun e => absurd e.1.1 (by rw [h]; decide)
    cases he with
    | param =>
      refine .inr ⟨hm, n44, ?_, ns⟩
      rintro ⟨i', e, h3, h4⟩
      exact not_answered (by decide) h4
    | pw1 hp1 hp2 o f' r' h =>
      rw [(ch_modes h ho).m81] at hm; cases hm
    | pw3 hp1 hp2 o f' r' h' =>
      rw [(ch_modes h' ho).m81] at hm
      exact .inr ⟨hm, n44, nr (by rw [h]; decide) (.inr (by rw [hp2]; decide)), ns⟩
  | rrc h o f' r' he =>
    rw [(rrc_modes he ho).1.m81] at hm
    exact .inr ⟨hm, fun e => absurd e.1 (by rw [h]; decide), nr (by rw [h]; decide) (.inl (by rw [h]; decide)),
      fun e => absurd e.1.1 (by rw [h]; decide)⟩
  | put h o f' r' he =>
    rw [(adm_same he ho fun _ _ _ h ho => put_same h ho).m81] at hm
    exact .inr ⟨hm, fun e => absurd e.1 (by rw [h]; decide), nr (by rw [h]; decide) (.inl (by rw [h]; decide)),
      fun e => absurd e.1.1 (by rw [h]; decide)⟩
  | imp h o f' r' he =>
    rw [(adm_same he ho fun _ _ _ h ho => imp_same h ho).m81] at hm
    exact .inr ⟨hm, fun e => absurd e.1 (by rw [h]; decide), nr (by rw [h]; decide) (.inl (by rw [h]; decide)),
      fun e => absurd e.1.1 (by rw [h]; decide)⟩
  | gen h o f' r' he =>
    rw [(gen_same he ho).m81] at hm
    exact .inr ⟨hm, fun e => absurd e.1 (by rw [h]; decide), nr (by rw [h]; decide) (.inl (by rw [h]; decide)),
      fun e => absurd e.1.1 (by rw [h]; decide)⟩
  | sign h o f' r' he =>
    have a1 : r0.m81 = true := by
      rcases (sign_ram he ho).m81 with e | e
      · rw [← e]; exact hm
      · rw [e] at hm; cases hm
    refine .inr ⟨a1, fun e => absurd e.1 (by rw [h.1]; decide), nr (by rw [h.1]; decide) (.inl (by rw [h.1]; decide)), ?_⟩
    rintro ⟨_, hg, h1⟩
    cases he with
    | noPin h' => simp [a1] at h'
    | bad hp o hb => exact bad_or_cut_not_given hb hg
    | given hp p m hus d hd r' hu hm' h1' => rw [h1' rfl h1] at hm; cases hm
  | auth h o f' r' he =>
    have h : i.c.ins = 0x88 := h
    have a1 : r'.m81 = r0.m81 := by
      cases he with
      | noPin => rfl
      | bad hp o hb r' hu hm' => exact hm' rfl ho
      | given hp p m hus d hd r' hu hm' => exact hm' rfl
    rw [a1] at hm
    exact .inr ⟨hm, fun e => absurd e.1 (by rw [h]; decide), nr (by rw [h]; decide) (.inl (by rw [h]; decide)),
      fun e => absurd e.1.1 (by rw [h]; decide)⟩
  | dec h o f' r' he =>
    rw [(dec_ram he ho).1] at hm
    refine .inr ⟨hm, fun e => absurd e.1 (by rw [h.1]; decide), nr (by rw [h.1]; decide) (.inl (by rw [h.1]; decide)),
      fun e => absurd e.1.2.1 (by rw [h.2.1]; decide)⟩
  | term h o f' r' he =>
    rw [(term_same he ho).m81] at hm
    exact .inr ⟨hm, fun e => absurd e.1 (by rw [h]; decide), nr (by rw [h]; decide) (.inl (by rw [h]; decide)),
      fun e => absurd e.1.1 (by rw [h]; decide)⟩
  | act h ht o f' r' he =>
    rw [(inst_ram he ho).1] at hm; cases hm

theorem m81_peff (h : PEff A x i f r o f' r') (ho : o ≠ .cut) (hm : r'.m81 = true) :
    VerifiesPw1 0x81 f (.apdu i) (outOf o) ∨
    (r.m81 = true ∧ ¬ (i.c.ins = 0x44 ∧ Ok (outOf o)) ∧ ¬ Rechecked 0x81 (.apdu i) (outOf o) ∧
      ¬ (IsSign i ∧ Given (outOf o) ∧ OneShot f)) := by
  cases h with
  | cla sw h =>
    have hb : Bad (.done (.sw sw)) := bad_sw (by rcases h with ⟨rfl, _⟩ | ⟨rfl, _⟩ <;> decide)
    refine .inr ⟨hm, fun e => not_ok_of_bad hb e.2, ?_, fun e => not_given_of_bad hb e.2.1⟩
    rintro ⟨i', e, h3, h4⟩
    injection e with e; subst e
    rcases h with ⟨rfl, _⟩ | ⟨rfl, h5⟩
    · exact not_answered (by decide) h4
    · rw [h5] at h3
      rcases h3 with h3 | h3 <;> exact absurd h3.1 (by decide)
  | gate r' hr sw h =>
    have hb : Bad (.done (.sw sw)) := bad_sw (by rcases h with ⟨rfl, _⟩ | ⟨rfl, _⟩ <;> decide)
    refine .inr ⟨by rw [hr.same.m81] at hm; exact hm, fun e => not_ok_of_bad hb e.2, ?_, fun e => not_given_of_bad hb e.2.1⟩
    rintro ⟨i', e, h3, h4⟩
    rcases h with ⟨rfl, _⟩ | ⟨rfl, _⟩ <;> exact not_answered (by decide) h4
  | cut => exact absurd rfl ho
  | cmd hc r0 hr t ht hg o f' r' h =>
    have := m81_cmd h ho hm
    rwa [hr.same.m81] at this

theorem ramOf_some {o : Outcome Reply} {r r' : Ram} (h : ramOf o r = some r') : o ≠ .cut ∧ r' = r := by
  cases o with
  | cut => cases h
  | done a => cases h; exact ⟨by simp, rfl⟩

theorem outOf_ne_cut {o : Outcome Reply} (h : o ≠ .cut) : outOf o ≠ .cut := by
  cases o with
  | cut => exact absurd rfl h
  | done => simp [outOf]

/-- No command of this kind ends the session. -/
theorem session_apdu (ho : o ≠ .cut) (h : ¬ (i.c.ins = 0x44 ∧ Ok (outOf o))) : ¬ SessionEnds (.apdu i) (outOf o) := by
  rintro (h1 | h1 | h1 | h1 | ⟨⟨i', e, h1⟩, h2⟩)
  · exact outOf_ne_cut ho h1
  · cases h1
  · cases h1
  · cases h1
  · injection e with e; subst e; exact h ⟨h1, h2⟩

theorem inv35_step (hx : x.Ok) {s : St} {log : List Entry} {op : Op} {env : Env}
    (hi : ∀ r, s.ram = some r → r.m81 = true → May81 log) :
    ∀ r, (step x s op env).1.ram = some r → r.m81 = true → May81 ((s, op, (step x s op env).2) :: log) := by
  have h := step_eff (A := anyFault) hx (s := s) (op := op) (env := env) anyAll
  generalize (step x s op env).1 = s' at h ⊢
  generalize (step x s op env).2 = out at h ⊢
  intro r' hr' hm
  cases h with
  | off op h ho => rw [h] at hr'; cases hr'
  | deselect r h => cases hr'; cases hm
  | boot o f' r1 h =>
    obtain ⟨ho, rfl⟩ := ramOf_some hr'
    rw [(boot_ram h ho).1] at hm; cases hm
  | factory r hr o f' r1 h =>
    obtain ⟨ho, rfl⟩ := ramOf_some hr'
    rw [(inst_ram h ho).1] at hm; cases hm
  | apdu i r hr o f' r1 h =>
    obtain ⟨ho, rfl⟩ := ramOf_some hr'
    rcases m81_peff h ho hm with h | ⟨h1, h2, h3, h4⟩
    · exact .inl h
    · refine .inr ⟨hi r hr h1, session_apdu ho h2, h3, ?_⟩
      rintro ⟨i', e, h5⟩
      injection e with e; subst e
      exact h4 h5

theorem sign_needs {s : St} {env : Env} (hx : x.Ok) (hs : IsSign i) (hg : Given (step x s (.apdu i) env).2) :
    ∃ r, s.ram = some r ∧ r.m81 = true := by
  have h := step_eff (A := anyFault) hx (s := s) (op := .apdu i) (env := env) anyAll
  generalize (step x s (.apdu i) env).1 = s' at h
  generalize (step x s (.apdu i) env).2 = out at h hg
  cases h with
  | off op h ho => obtain ⟨d, sw, h, _⟩ := hg; cases h
  | apdu i r hr o f' r1 h =>
    refine ⟨r, hr, ?_⟩
    cases h with
    | cla sw h => exact (not_given_of_bad (bad_sw (by rcases h with ⟨rfl, _⟩ | ⟨rfl, _⟩ <;> decide)) hg).elim
    | gate r' hr sw h => exact (not_given_of_bad (bad_sw (by rcases h with ⟨rfl, _⟩ | ⟨rfl, _⟩ <;> decide)) hg).elim
    | cut => obtain ⟨d, sw, h, _⟩ := hg; cases h
    | cmd hc r0 hr t ht hgt o f' r' h =>
      rw [← hr.same.m81]
      cases h with
      | read h hs' => exact absurd hs hs'
      | cut => obtain ⟨d, sw, h, _⟩ := hg; cases h
      | verify h => exact absurd hs.1 (by rw [h]; decide)
      | change h => exact absurd hs.1 (by rw [h]; decide)
      | rrc h => exact absurd hs.1 (by rw [h]; decide)
      | put h => exact absurd hs.1 (by rw [h]; decide)
      | imp h => exact absurd hs.1 (by rw [h]; decide)
      | gen h => exact absurd hs.1 (by rw [h]; decide)
      | term h => exact absurd hs.1 (by rw [h]; decide)
      | act h => exact absurd hs.1 (by rw [h]; decide)
      | auth h => exact absurd hs.1 (by rw [show i.c.ins = 0x88 from h]; decide)
      | dec h => exact absurd hs.2.1 (by rw [h.2.1]; decide)
      | sign h o f' r' he =>
        cases he with
        | noPin h' => exact (not_given_of_bad (bad_sw (by decide)) hg).elim
        | bad hp => exact hp
        | given hp => exact hp

/-- C35: for every flash contents, every history of commands, restarts, storage errors and power cuts: a signature leaves
the card only if PW1 was verified under 81 in this session, and neither checked again nor changed since, nor used for
another signature if PW1 has to be verified for every signature. -/
theorem C35_sign_needs_pw1 (hx : x.Ok) (f : Flash) (h : List (Op × Env)) (i : In) (env : Env) (hs : IsSign i)
    (hg : Given (step x (run x ⟨f, none⟩ [] h).1 (.apdu i) env).2) :
    May81 (run x ⟨f, none⟩ [] h).2 := by
  obtain ⟨r, hr, hm⟩ := sign_needs hx hs hg
  exact run_inv (x := x) (I := fun log s => ∀ r, s.ram = some r → r.m81 = true → May81 log) (P := fun _ _ => True)
    (fun s log op env _ hi => inv35_step hx hi) h ⟨f, none⟩ [] (fun _ _ => trivial)
    (fun r h => by cases h) r hr hm

/-! ### C36: decryption and authentication need PW1 (82) -/

theorem m82_cmd {r0 : Ram} (h : CEff A x i f r0 o f' r') (ho : o ≠ .cut) (hm : r'.m82 = true) :
    VerifiesPw1 0x82 f (.apdu i) (outOf o) ∨
    (r0.m82 = true ∧ ¬ (i.c.ins = 0x44 ∧ Ok (outOf o)) ∧ ¬ Rechecked 0x82 (.apdu i) (outOf o)) := by
  have nr : i.c.ins ≠ 0x20 → (i.c.ins ≠ 0x24 ∨ i.c.p2 ≠ 0x81) → ¬ Rechecked 0x82 (.apdu i) (outOf o) := by
    rintro h1 h2 ⟨i', e, h3, _⟩
    injection e with e; subst e
    rcases h3 with h3 | h3
    · exact h1 h3.1
    · rcases h2 with h2 | h2
      · exact h2 h3.1
      · exact h2 h3.2
  have oth : i.c.ins ∉ [0x20, 0x24, 0x44] → r'.m82 = r0.m82 →
      (r0.m82 = true ∧ ¬ (i.c.ins = 0x44 ∧ Ok (outOf o)) ∧ ¬ Rechecked 0x82 (.apdu i) (outOf o)) := by
    intro h1 h2
    simp only [List.mem_cons, List.not_mem_nil, or_false, not_or] at h1
    exact ⟨h2 ▸ hm, fun e => h1.2.2 e.1, nr h1.1 (.inl h1.2.1)⟩
  cases h with
  | read h hs hd hi a r' hr hb =>
    simp only [List.mem_cons, List.not_mem_nil, or_false, not_or] at h
    refine .inr ⟨hr.m82 ▸ hm, ?_, nr h.1 (.inl h.2.1)⟩
    rintro ⟨e1, e2⟩
    rcases hb with hb | ⟨hb, _⟩
    · exact not_ok_of_bad hb e2
    · exact hb e1
  | cut => exact absurd rfl ho
  | verify h o f' r' he =>
    have n44 : ¬ (i.c.ins = 0x44 ∧ Ok (outOf o)) := fun e => absurd e.1 (by rw [h]; decide)
    have np : i.c.p2 ≠ 0x82 → ¬ Rechecked 0x82 (.apdu i) (outOf o) := by
      rintro h1 ⟨i', e, h3, _⟩
      injection e with e; subst e
      rcases h3 with h3 | h3
      · exact h1 h3.2
      · exact absurd h3.1 (by rw [h]; decide)
    cases he with
    | param =>
      refine .inr ⟨hm, n44, ?_⟩
      rintro ⟨i', e, h3, h4⟩
      exact not_answered (by decide) h4
    | cut => exact absurd rfl ho
    | logout hp2 hp1 =>
      simp only [setR_m82, modeOff] at hm
      by_cases e : i.c.p2 = 0x82
      · rw [if_pos e] at hm; cases hm
      · rw [if_neg e] at hm; exact .inr ⟨hm, n44, np e⟩
    | query hp2 hp1 hl sw hsw =>
      simp only [modeOff] at hm
      by_cases e : i.c.p2 = 0x82
      · rw [if_pos e] at hm; cases hm
      · rw [if_neg e] at hm; exact .inr ⟨hm, n44, np e⟩
    | chk hp2 hp1 hl rc ctr p q hv r' hr =>
      subst hr
      simp only [setR_m82] at hm
      by_cases e : i.c.p2 = 0x82
      · by_cases hok : rc = .ok
        · subst hok
          left
          refine ⟨i, rfl, h, hp1, e, hl, ?_, ⟨[], rfl⟩⟩
          have e' : (partF (pinOf i.c.p2)).get f = f.pw1 := by rw [e]; rfl
          have := ver_shows (data := i.c.data) hv (by cases hv; rfl)
          rwa [e'] at this
        · rw [if_neg hok] at hm
          simp only [modeOff, if_pos e] at hm
          cases hm
      · right
        refine ⟨?_, n44, np e⟩
        split at hm
        · simpa [modeOn, e] using hm
        · simpa [modeOff, e] using hm
  | change h o f' r' he =>
    have n44 : ¬ (i.c.ins = 0x44 ∧ Ok (outOf o)) := fun e => absurd e.1 (by rw [h]; decide)
    cases he with
    | param =>
      refine .inr ⟨hm, n44, ?_⟩
      rintro ⟨i', e, h3, h4⟩
      exact not_answered (by decide) h4
    | pw1 hp1 hp2 o f' r' h =>
      rw [(ch_modes h ho).m82] at hm; cases hm
    | pw3 hp1 hp2 o f' r' h' =>
      rw [(ch_modes h' ho).m82] at hm
      exact .inr ⟨hm, n44, nr (by rw [h]; decide) (.inr (by rw [hp2]; decide))⟩
  | rrc h o f' r' he => exact .inr (oth (by rw [h]; decide) (rrc_modes he ho).1.m82)
  | put h o f' r' he => exact .inr (oth (by rw [h]; decide) (adm_same he ho fun _ _ _ h ho => put_same h ho).m82)
  | imp h o f' r' he => exact .inr (oth (by rw [h]; decide) (adm_same he ho fun _ _ _ h ho => imp_same h ho).m82)
  | gen h o f' r' he => exact .inr (oth (by rw [h]; decide) (gen_same he ho).m82)
  | sign h o f' r' he => exact .inr (oth (by rw [h.1]; decide) (sign_ram he ho).m82)
  | auth h o f' r' he => exact .inr (oth (by rw [show i.c.ins = 0x88 from h]; decide) (sign_ram he ho).m82)
  | dec h o f' r' he => exact .inr (oth (by rw [h.1]; decide) (dec_ram he ho).2.1)
  | term h o f' r' he => exact .inr (oth (by rw [h]; decide) (term_same he ho).m82)
  | act h ht o f' r' he =>
    rw [(inst_ram he ho).2.1] at hm; cases hm

theorem m82_peff (h : PEff A x i f r o f' r') (ho : o ≠ .cut) (hm : r'.m82 = true) :
    VerifiesPw1 0x82 f (.apdu i) (outOf o) ∨
    (r.m82 = true ∧ ¬ (i.c.ins = 0x44 ∧ Ok (outOf o)) ∧ ¬ Rechecked 0x82 (.apdu i) (outOf o)) := by
  cases h with
  | cla sw h =>
    have hb : Bad (.done (.sw sw)) := bad_sw (by rcases h with ⟨rfl, _⟩ | ⟨rfl, _⟩ <;> decide)
    refine .inr ⟨hm, fun e => not_ok_of_bad hb e.2, ?_⟩
    rintro ⟨i', e, h3, h4⟩
    injection e with e; subst e
    rcases h with ⟨rfl, _⟩ | ⟨rfl, h5⟩
    · exact not_answered (by decide) h4
    · rw [h5] at h3
      rcases h3 with h3 | h3 <;> exact absurd h3.1 (by decide)
  | gate r' hr sw h =>
    have hb : Bad (.done (.sw sw)) := bad_sw (by rcases h with ⟨rfl, _⟩ | ⟨rfl, _⟩ <;> decide)
    refine .inr ⟨by rw [hr.same.m82] at hm; exact hm, fun e => not_ok_of_bad hb e.2, ?_⟩
    rintro ⟨i', e, h3, h4⟩
    rcases h with ⟨rfl, _⟩ | ⟨rfl, _⟩ <;> exact not_answered (by decide) h4
  | cut => exact absurd rfl ho
  | cmd hc r0 hr t ht hg o f' r' h =>
    have := m82_cmd h ho hm
    rwa [hr.same.m82] at this

theorem inv36_step (hx : x.Ok) {s : St} {log : List Entry} {op : Op} {env : Env}
    (hi : ∀ r, s.ram = some r → r.m82 = true → May82 log) :
    ∀ r, (step x s op env).1.ram = some r → r.m82 = true → May82 ((s, op, (step x s op env).2) :: log) := by
  have h := step_eff (A := anyFault) hx (s := s) (op := op) (env := env) anyAll
  generalize (step x s op env).1 = s' at h ⊢
  generalize (step x s op env).2 = out at h ⊢
  intro r' hr' hm
  cases h with
  | off op h ho => rw [h] at hr'; cases hr'
  | deselect r h => cases hr'; cases hm
  | boot o f' r1 h =>
    obtain ⟨ho, rfl⟩ := ramOf_some hr'
    rw [(boot_ram h ho).2.1] at hm; cases hm
  | factory r hr o f' r1 h =>
    obtain ⟨ho, rfl⟩ := ramOf_some hr'
    rw [(inst_ram h ho).2.1] at hm; cases hm
  | apdu i r hr o f' r1 h =>
    obtain ⟨ho, rfl⟩ := ramOf_some hr'
    rcases m82_peff h ho hm with h | ⟨h1, h2, h3⟩
    · exact .inl h
    · exact .inr ⟨hi r hr h1, session_apdu ho h2, h3⟩

theorem use_needs {s : St} {env : Env} (hx : x.Ok) (hs : IsDecipher i ∨ IsAuth i)
    (hg : Given (step x s (.apdu i) env).2) : ∃ r, s.ram = some r ∧ r.m82 = true := by
  have h := step_eff (A := anyFault) hx (s := s) (op := .apdu i) (env := env) anyAll
  generalize (step x s (.apdu i) env).1 = s' at h
  generalize (step x s (.apdu i) env).2 = out at h hg
  have hins : i.c.ins = 0x2A ∨ i.c.ins = 0x88 := hs.imp (fun h => h.1) id
  have no : ∀ b : Byte, i.c.ins = b → b ≠ 0x2A → b ≠ 0x88 → False := by
    intro b h1 h2 h3
    rcases hins with h | h
    · exact h2 (h1 ▸ h)
    · exact h3 (h1 ▸ h)
  cases h with
  | off op h ho => obtain ⟨d, sw, h, _⟩ := hg; cases h
  | apdu i r hr o f' r1 h =>
    refine ⟨r, hr, ?_⟩
    cases h with
    | cla sw h => exact (not_given_of_bad (bad_sw (by rcases h with ⟨rfl, _⟩ | ⟨rfl, _⟩ <;> decide)) hg).elim
    | gate r' hr sw h => exact (not_given_of_bad (bad_sw (by rcases h with ⟨rfl, _⟩ | ⟨rfl, _⟩ <;> decide)) hg).elim
    | cut => obtain ⟨d, sw, h, _⟩ := hg; cases h
    | cmd hc r0 hr t ht hgt o f' r' h =>
      rw [← hr.same.m82]
      cases h with
      | read h hs' hd' =>
        rcases hs with hs | hs
        · exact absurd hs hd'
        · exact absurd (show i.c.ins = 0x88 from hs) (fun e => h (by rw [e]; decide))
      | cut => obtain ⟨d, sw, h, _⟩ := hg; cases h
      | verify h => exact (no _ h (by decide) (by decide)).elim
      | change h => exact (no _ h (by decide) (by decide)).elim
      | rrc h => exact (no _ h (by decide) (by decide)).elim
      | put h => exact (no _ h (by decide) (by decide)).elim
      | imp h => exact (no _ h (by decide) (by decide)).elim
      | gen h => exact (no _ h (by decide) (by decide)).elim
      | term h => exact (no _ h (by decide) (by decide)).elim
      | act h => exact (no _ h (by decide) (by decide)).elim
      | auth h o f' r' he =>
        cases he with
        | noPin h' => exact (not_given_of_bad (bad_sw (by decide)) hg).elim
        | bad hp => exact hp
        | given hp => exact hp
      | dec h o f' r' he =>
        cases he with
        | noPin h' => exact (not_given_of_bad (bad_sw (by decide)) hg).elim
        | bad hp => exact hp
        | given hp => exact hp
      | sign h =>
        rcases hs with hs | hs
        · exact absurd hs.2.1 (by rw [h.2.1]; decide)
        · exact absurd (show i.c.ins = 0x88 from hs) (by rw [h.1]; decide)

/-- C36: for every flash contents, every history of commands, restarts, storage errors and power cuts: a result of
DECIPHER or INTERNAL AUTHENTICATE leaves the card only if PW1 was verified under 82 in this session, and neither
checked again for 82 nor changed since. -/
theorem C36_use_needs_pw1 (hx : x.Ok) (f : Flash) (h : List (Op × Env)) (i : In) (env : Env)
    (hs : IsDecipher i ∨ IsAuth i) (hg : Given (step x (run x ⟨f, none⟩ [] h).1 (.apdu i) env).2) :
    May82 (run x ⟨f, none⟩ [] h).2 := by
  obtain ⟨r, hr, hm⟩ := use_needs hx hs hg
  exact run_inv (x := x) (I := fun log s => ∀ r, s.ram = some r → r.m82 = true → May82 log) (P := fun _ _ => True)
    (fun s log op env _ hi => inv36_step hx hi) h ⟨f, none⟩ [] (fun _ _ => trivial)
    (fun r h => by cases h) r hr hm

end Verif.Pgp
