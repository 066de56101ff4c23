import Verif.Lemmas.PivStep
/-
C30: administrative rights need the management key.
-/
set_option linter.unusedSimpArgs false
namespace Verif.Piv
open Cmd Verif.Spec.Piv Verif.KeyFile

variable {A : Fault → Prop} {x : Ext} {i : In} {f : Flash} {r r' : Ram}

/-! ### C30 -/

/-- Rights and pending challenges are accounted for by the log. -/
def Inv30 (x : Ext) (s : St) (log : List Entry) : Prop :=
  ∀ r, s.ram = some r → (r.admin = true → AdminAuth x log) ∧ (r.auth = .external → Expected x log false r.chal) ∧
    (r.auth = .mutual → Expected x log true r.chal)

theorem keep30 {s : St} {log : List Entry} {op : Op} {o : Out} (hi : Inv30 x s log) (hr : s.ram = some r)
    (hg : ∀ t v, t = 0x80 ∨ t = 0x81 → ¬ Gave t v op o)
    (ha : r'.admin = true → r.admin = true ∧ ¬ SessionEnds op o)
    (hc : r'.auth ≠ .none → r'.auth = r.auth ∧ r'.chal = r.chal ∧ ¬ Restart op o) (f' : Flash) :
    Inv30 x ⟨f', some r'⟩ ((s, op, o) :: log) := by
  intro r1 h1
  cases h1
  obtain ⟨h1, h2, h3⟩ := hi r hr
  refine ⟨fun h => ?_, fun h => ?_, fun h => ?_⟩
  · exact .inr ⟨h1 (ha h).1, (ha h).2, fun v => hg _ v (.inr rfl), fun v => hg _ v (.inl rfl)⟩
  · obtain ⟨e1, e2, e3⟩ := hc (by rw [h]; decide)
    exact .inr (.inr ⟨by rw [e2]; exact h2 (by rw [← e1]; exact h), e3, fun v => hg _ v (.inr rfl), fun v => hg _ v (.inl rfl)⟩)
  · obtain ⟨e1, e2, e3⟩ := hc (by rw [h]; decide)
    exact .inr (.inr ⟨by rw [e2]; exact h3 (by rw [← e1]; exact h), e3, fun v => hg _ v (.inr rfl), fun v => hg _ v (.inl rfl)⟩)

theorem not_gave {o : Out} (h : i.c.ins ≠ 0x87) (t : Byte) (v : Bytes) : ¬ Gave t v (.apdu i) o := by
  rintro ⟨j, e, h', _⟩; cases e; exact h h'

theorem not_gave_sw {sw : Nat} (t : Byte) (v : Bytes) : ¬ Gave t v (.apdu i) (.reply (.sw sw)) := by
  rintro ⟨j, e, h', h⟩; cases h

theorem not_gave_failed {a : Reply} (h : Failed (.done a)) (t : Byte) (v : Bytes) : ¬ Gave t v (.apdu i) (.reply a) := by
  rintro ⟨j, e, h', e'⟩
  obtain ⟨b, e, h⟩ := h
  cases e; cases e'; exact h _ rfl

theorem ends_apdu {a : Reply} (h : SessionEnds (.apdu i) (.reply a)) :
    (i.c.ins = 0xA4 ∨ i.c.ins = 0xFB) ∧ ∃ d, a = .resp d 0x9000 := by
  rcases h with h | ⟨_, h⟩ | h | ⟨_, h⟩ | ⟨j, e, h, d, hd⟩ | ⟨j, e, h, d, hd⟩
  · cases h
  · cases h
  · cases h
  · cases h
  · cases e; cases hd; exact ⟨.inl h, _, rfl⟩
  · cases e; cases hd; exact ⟨.inr h, _, rfl⟩

theorem restart_apdu {a : Reply} (h : Restart (.apdu i) (.reply a)) : i.c.ins = 0xA4 ∧ ∃ d, a = .resp d 0x9000 := by
  rcases h with h | ⟨_, h⟩ | ⟨j, e, h, d, hd⟩
  · cases h
  · cases h
  · cases e; cases hd; exact ⟨h, _, rfl⟩

/-- A command that touches none of the variables about authentication. -/
theorem same30 {log : List Entry} {a : Reply} (hi : Inv30 x ⟨f, some r⟩ log) (h : r'.admin = r.admin) (h1 : r'.auth = r.auth)
    (h2 : r'.chal = r.chal) (h3 : i.c.ins ≠ 0x87 ∨ Failed (.done a))
    (h4 : i.c.ins ≠ 0xA4 ∧ i.c.ins ≠ 0xFB ∨ Failed (.done a)) (f' : Flash) :
    Inv30 x ⟨f', some r'⟩ ((⟨f, some r⟩, .apdu i, .reply a) :: log) := by
  have ns : ¬ SessionEnds (.apdu i) (.reply a) := by
    intro h
    obtain ⟨e, d, hd⟩ := ends_apdu h
    rcases h4 with h4 | ⟨b, e', h4⟩
    · exact e.elim h4.1 h4.2
    · cases e'; exact h4 d hd
  have nr : ¬ Restart (.apdu i) (.reply a) := by
    intro h
    obtain ⟨e, d, hd⟩ := restart_apdu h
    rcases h4 with h4 | ⟨b, e', h4⟩
    · exact h4.1 e
    · cases e'; exact h4 d hd
  refine keep30 hi rfl (fun t v _ => ?_) (fun ha => ⟨by rw [← h]; exact ha, ns⟩) (fun _ => ⟨h1, h2, nr⟩) f'
  rcases h3 with h3 | h3
  · exact not_gave h3 t v
  · exact not_gave_failed h3 t v

theorem chk_admin {w : Which} {d : Bytes} {e : Option Reply} {f f' : Flash} (h : ChkEff A w d f r e f' r') :
    r'.admin = r.admin ∧ r'.auth = r.auth ∧ r'.chal = r.chal := by
  cases h <;> cases w <;> exact ⟨rfl, rfl, rfl⟩

theorem vtu_admin {w w' : Which} {d : Bytes} {e : Option Reply} {f f' : Flash} (h : VtuEff A w w' d f r e f' r') :
    r'.admin = r.admin ∧ r'.auth = r.auth ∧ r'.chal = r.chal := by
  cases h with
  | chk _ _ _ h => exact chk_admin h
  | updIo f1 r1 h _ => obtain h := chk_admin h; cases w' <;> exact h
  | ok f1 r1 h _ => obtain h := chk_admin h; cases w' <;> exact h

theorem verify_admin {o : Outcome Reply} {f f' : Flash} (h : VerifyEff A i f r o f' r') (ho : o ≠ .cut) :
    r'.admin = r.admin ∧ r'.auth = r.auth ∧ r'.chal = r.chal := by
  cases h with
  | cut => exact absurd rfl ho
  | chk _ _ _ _ _ _ h => exact chk_admin h
  | right _ _ _ _ _ h => obtain h := chk_admin h; exact h
  | _ => exact ⟨rfl, rfl, rfl⟩

theorem chg_admin {o : Outcome Reply} {f f' : Flash} (h : ChgEff A i f r o f' r') (ho : o ≠ .cut) :
    r'.admin = r.admin ∧ r'.auth = r.auth ∧ r'.chal = r.chal := by
  cases h with
  | cut => exact absurd rfl ho
  | bad => exact ⟨rfl, rfl, rfl⟩
  | fail _ _ _ _ _ _ _ h => exact vtu_admin h
  | flagIo _ _ _ _ _ _ h => exact vtu_admin h
  | done _ _ _ _ _ _ _ h => exact vtu_admin h

theorem rrc_admin {o : Outcome Reply} {f f' : Flash} (h : RrcEff A i f r o f' r') (ho : o ≠ .cut) :
    r'.admin = r.admin ∧ r'.auth = r.auth ∧ r'.chal = r.chal := by
  cases h with
  | cut => exact absurd rfl ho
  | bad => exact ⟨rfl, rfl, rfl⟩
  | fail _ _ _ _ _ _ h => exact vtu_admin h
  | done _ _ _ _ _ h => exact vtu_admin h

theorem get_admin {o : Outcome Reply} {f : Flash} (h : GetEff A f r o r') (ho : o ≠ .cut) :
    r'.admin = r.admin ∧ r'.auth = r.auth ∧ r'.chal = r.chal := by
  cases h with
  | cut => exact absurd rfl ho
  | bad => exact ⟨rfl, rfl, rfl⟩
  | disc => exact ⟨rfl, rfl, rfl⟩
  | first _ _ _ _ _ _ _ hr =>
    rcases hr with ⟨rfl, _⟩ | ⟨rfl, _⟩ <;> exact ⟨rfl, rfl, rfl⟩
  | next _ _ _ _ _ _ _ _ _ _ hr =>
    rcases hr with rfl | rfl <;> exact ⟨rfl, rfl, rfl⟩

theorem put_admin {c : Apdu.Capdu} {o : Outcome Reply} {f f' : Flash} (h : PutEff A c f r o f' r') (ho : o ≠ .cut) :
    r'.admin = r.admin ∧ r'.auth = r.auth ∧ r'.chal = r.chal := by
  cases h with
  | cut => exact absurd rfl ho
  | app _ _ _ _ _ _ _ hr => rw [hr]; split <;> exact ⟨rfl, rfl, rfl⟩
  | first _ _ _ _ _ _ _ _ _ hr => rw [hr]; split <;> exact ⟨rfl, rfl, rfl⟩
  | _ => exact ⟨rfl, rfl, rfl⟩

theorem adm_admin {o : Outcome Reply} {f f' : Flash} (h : AdmEff A f r o f' r') (ho : o ≠ .cut) :
    r'.admin = r.admin ∧ r'.auth = r.auth ∧ r'.chal = r.chal := by
  cases h with
  | cut => exact absurd rfl ho
  | _ => exact ⟨rfl, rfl, rfl⟩

theorem ref_adm {p : Byte} (h : refOf p = some .adm) : p = 0x9B := by
  unfold refOf at h
  repeat' split at h
  all_goals first | (cases h; done) | simp_all

theorem refOf_adm : refOf 0x9B = some .adm := rfl

/-- The outcomes of GENERAL AUTHENTICATE preserve the invariant. -/
theorem ga30 {log : List Entry} {a : Reply} (hi : Inv30 x ⟨f, some r⟩ log) (hA : ¬ A .fail)
    (ht : ∀ k c, (x.cr.tdes k c).isSome) (hins : i.c.ins = 0x87) (h : GAEff A x i f (pre i.c r) (.done a) r') :
    Inv30 x ⟨f, some r'⟩ ((⟨f, some r⟩, .apdu i, .reply a) :: log) := by
  have ns : ¬ SessionEnds (.apdu i) (.reply a) := fun h => by
    obtain ⟨e, _⟩ := ends_apdu h; rw [hins] at e; revert e; decide
  have nr : ¬ Restart (.apdu i) (.reply a) := fun h => by
    obtain ⟨e, _⟩ := restart_apdu h; rw [hins] at e; revert e; decide
  cases h with
  | bad _ hb => exact same30 (r' := pre i.c r) hi rfl rfl rfl (.inr (bad_failed hb)) (.inl (by rw [hins]; decide)) _
  | run k hk m hm t htch _ _ h =>
    cases h with
    | fail _ ho _ c hc ha =>
      refine keep30 hi rfl (fun t v _ => not_gave_failed ho t v) (fun h => ⟨?_, ns⟩) (fun h => ?_) _
      · rcases ha with rfl | rfl | rfl
        · exact h
        · exact h
        · cases h
      · rcases ha with rfl | rfl | rfl
        · exact absurd rfl h
        · exact ⟨rfl, rfl, nr⟩
        · exact absurd rfl h
    | lost hk' hl d ch au =>
      rcases hl with hl | hl | ⟨k', b, hl⟩
      · exact absurd hl hA
      · subst hk'
        change f.mgmt.bind (·.info) = some m at hm
        rw [hl] at hm; cases hm
      · have := ht k' b; rw [hl] at this; cases this
    | key s hk hm d hd =>
      refine keep30 (r' := { authReset { (pre i.c r) with lastTouch := t } with consumed := true }) hi rfl ?_
        (fun h => ⟨h, ns⟩) (fun h => absurd rfl h) _
      rintro t v htv ⟨j, _, _, e⟩
      cases e
      exact hd t v htv rfl
    | extReq hk q hq v d hd =>
      intro r1 h1
      cases h1
      refine ⟨fun h => (by cases h), fun _ => .inl ⟨v, q, ⟨i, rfl, hins, rfl⟩, rfl, hq, hd⟩, fun h => (by cases h)⟩
    | mutReq hk q hq v d hd =>
      intro r1 h1
      cases h1
      refine ⟨fun h => (by cases h), fun h => (by cases h), fun _ => .inr (.inl ⟨v, q, ⟨i, rfl, hins, rfl⟩, rfl, hq, hd⟩)⟩
    | extResp hk' ha hd =>
      subst hk'
      intro r1 h1
      cases h1
      refine ⟨fun _ => .inl ⟨i, rfl, hins, ref_adm hk, ⟨[], rfl⟩, r.chal, .inl ⟨(hi r rfl).2.1 ha, hd⟩⟩, fun h => (by cases h),
        fun h => (by cases h)⟩
    | mutResp hk' ha hd v =>
      subst hk'
      intro r1 h1
      cases h1
      refine ⟨fun _ => .inl ⟨i, rfl, hins, ref_adm hk, ⟨_, rfl⟩, r.chal, .inr ⟨(hi r rfl).2.2 ha, hd⟩⟩, fun h => (by cases h),
        fun h => (by cases h)⟩

theorem inv30_step (hx : x.Ok) (ht : ∀ k c, (x.cr.tdes k c).isSome) {s : St} {log : List Entry} {op : Op} {env : Env}
    (he : env.all cutsOnly) (hi : Inv30 x s log) :
    Inv30 x (step x s op env).1 ((s, op, (step x s op env).2) :: log) := by
  have h := step_eff hx s op he
  generalize (step x s op env).1 = s' at h ⊢
  generalize (step x s op env).2 = o at h ⊢
  cases h with
  | off => intro r h; cases h
  | apduCut => intro r h; cases h
  | facCut => intro r h; cases h
  | bootCut => intro r h; cases h
  | desel f r =>
    refine keep30 (r' := poweroff r) hi rfl (fun t v _ => ?_) (fun h => by cases h) (fun _ => ⟨rfl, rfl, ?_⟩) _
    · rintro ⟨_, e, _⟩; cases e
    · rintro (h | ⟨_, h⟩ | ⟨_, h, _⟩) <;> cases h
  | fac f r rnd a f' r' h =>
    obtain ⟨al, rfl⟩ := h.ram
    refine keep30 (r' := { poweroff r with alg := al }) hi rfl (fun t v _ => ?_) (fun h => by cases h)
      (fun _ => ⟨rfl, rfl, ?_⟩) _
    · rintro ⟨_, e, _⟩; cases e
    · rintro (h | ⟨_, h⟩ | ⟨_, h, _⟩) <;> cases h
  | boot f o rnd a f' r' h =>
    obtain ⟨al, rfl⟩ := h.ram
    intro r1 h1
    cases h1
    exact ⟨fun h => (by cases h), fun h => (by cases h), fun h => (by cases h)⟩
  | apdu f r i a f' r' h =>
    have failed6E : Failed (.done (Reply.sw 0x6E00)) := ⟨_, rfl, fun d e => by cases e⟩
    cases h with
    | cla h => exact same30 hi rfl rfl rfl (.inr failed6E) (.inr failed6E) _
    | sel h o r' he =>
      cases he with
      | bad _ hb => exact same30 (r' := pre i.c r) hi rfl rfl rfl (.inl (by rw [h]; decide)) (.inr (bad_failed hb)) _
      | ok d =>
        intro r1 h1
        cases h1
        exact ⟨fun h => (by cases h), fun h => (by cases h), fun h => (by cases h)⟩
    | get h o r' he =>
      obtain ⟨e1, e2, e3⟩ := get_admin he (by intro e; cases e)
      refine same30 hi e1 e2 e3 (.inl ?_) (.inl ?_) _ <;> rcases h with h | h <;> rw [h] <;> decide
    | verify h o f' r' he =>
      obtain ⟨e1, e2, e3⟩ := verify_admin he (by intro e; cases e)
      exact same30 hi e1 e2 e3 (.inl (by rw [h]; decide)) (.inl (by rw [h]; decide)) _
    | chg h o f' r' he =>
      obtain ⟨e1, e2, e3⟩ := chg_admin he (by intro e; cases e)
      exact same30 hi e1 e2 e3 (.inl (by rw [h]; decide)) (.inl (by rw [h]; decide)) _
    | rrc h o f' r' he =>
      obtain ⟨e1, e2, e3⟩ := rrc_admin he (by intro e; cases e)
      exact same30 hi e1 e2 e3 (.inl (by rw [h]; decide)) (.inl (by rw [h]; decide)) _
    | ga h o r' he => exact ga30 hi (fun h => h rfl) ht h he
    | put h o f' r' he =>
      obtain ⟨e1, e2, e3⟩ := put_admin he (by intro e; cases e)
      exact same30 hi e1 e2 e3 (.inl (by rw [h]; decide)) (.inl (by rw [h]; decide)) _
    | adm h o f' r' he =>
      obtain ⟨e1, e2, e3⟩ := adm_admin he (by intro e; cases e)
      refine same30 hi e1 e2 e3 (.inl ?_) (.inl ?_) _ <;> rcases h with h | h | h <;> rw [h] <;> decide
    | set h o f' he => exact same30 (r' := pre i.c r) hi rfl rfl rfl (.inl (by rw [h]; decide)) (.inl (by rw [h]; decide)) _
    | reset h o f' r' he =>
      cases he with
      | bad _ hb => exact same30 (r' := pre i.c r) hi rfl rfl rfl (.inl (by rw [h]; decide)) (.inr (bad_failed hb)) _
      | done n m _ _ _ _ _ _ hf =>
        obtain ⟨al, rfl⟩ := hf.ram
        refine keep30 (r' := { poweroff (pre i.c r) with alg := al }) hi rfl
          (fun t v _ => not_gave (by rw [h]; decide) t v) (fun h => by cases h) (fun _ => ⟨rfl, rfl, ?_⟩) _
        intro h'
        have := (restart_apdu h').1
        rw [h] at this; revert this; decide
    | info h a =>
      refine same30 (r' := pre i.c r) hi rfl rfl rfl (.inl fun e => h (by rw [e]; decide)) (.inl ⟨fun e => h (by rw [e]; decide), fun e => h (by rw [e]; decide)⟩) _

/-- Management commands without rights. -/
theorem noAdmin_wp (h : i.c.ins ∈ adminIns) (hr : r.admin = false) :
    wp A (process x i) (fun _ _ _ => False) (fun e f' _ => Refused i.c.ins (.reply e) ∧ f' = f) (fun _ _ => False) f r := by
  have key : ∀ r : Ram, r.admin = false →
      wp A (dispatch x i) (fun _ _ _ => False) (fun e f' _ => Refused i.c.ins (.reply e) ∧ f' = f) (fun _ _ => False) f r := by
    intro r hr
    simp only [adminIns, List.mem_cons, List.not_mem_nil, or_false] at h
    have na : ∀ {Q X}, wp A needAdmin Q (fun e f' _ => Refused i.c.ins (.reply e) ∧ f' = f) X f r := by
      intro Q X
      unfold needAdmin
      apply wp_bind; apply wp_get
      rw [hr]
      exact wp_throw ⟨.inr (.inr (.inl rfl)), rfl⟩
    rcases h with h | h | h | h | h
    · have e : dispatch x i = putData i.c := by simp [dispatch, h]
      rw [e]
      exact wp_bind na
    · have e : dispatch x i = generate x i := by simp [dispatch, h]
      rw [e]
      exact wp_bind na
    · have e : dispatch x i = setMgmt i.c := by simp [dispatch, h]
      rw [e]
      unfold setMgmt
      wps
      all_goals try exact ⟨.inr (.inr (.inr ⟨h, _, by decide, rfl⟩)), rfl⟩
      exact na
    · have e : dispatch x i = importKey x i.c := by simp [dispatch, h]
      rw [e]
      exact wp_bind na
    · have e : dispatch x i = algExt i.c := by simp [dispatch, h]
      rw [e]
      exact wp_bind na
  unfold process
  apply wp_ite <;> intro hc
  · exact wp_throw ⟨.inr (.inl rfl), rfl⟩
  wps
  all_goals exact key _ hr

theorem noAdmin_unmanaged {o : Outcome Reply} {f' : Flash} (hr : r.admin = false) (h : i.c.ins ≠ 0xFB)
    (hp : PEff A x i f r o f' r') : Unmanaged f f' := by
  have same : Unmanaged f f := ⟨rfl, rfl, rfl, rfl⟩
  have pin : ∀ {f'}, PinOnly f f' → Unmanaged f f' := fun h => ⟨h.objs, h.keys, h.mgmt, h.alg⟩
  have hr : (pre i.c r).admin = false := hr
  cases hp with
  | cla => exact same
  | sel => exact same
  | get => exact same
  | verify _ _ _ _ he =>
    cases he with
    | chk _ _ _ _ _ _ h => exact pin (chk_pinOnly h)
    | right _ _ _ _ _ h => exact pin (chk_pinOnly h)
    | _ => exact same
  | chg _ _ _ _ he =>
    cases he with
    | bad => exact same
    | cut _ _ hf => exact pin hf
    | fail _ _ _ _ _ _ _ h => exact pin (vtu_pinOnly h)
    | flagIo _ _ _ _ _ _ h => exact pin (vtu_pinOnly h)
    | done _ _ _ _ _ _ _ h hf => exact pin ((vtu_pinOnly h).trans (setDflt_pinOnly hf))
  | rrc _ _ _ _ he =>
    cases he with
    | bad => exact same
    | cut _ _ hf => exact pin hf
    | fail _ _ _ _ _ _ h => exact pin (vtu_pinOnly h)
    | done _ _ _ _ _ h => exact pin (vtu_pinOnly h)
  | ga => exact same
  | put _ _ _ _ he =>
    cases he with
    | app h => rw [hr] at h; cases h
    | first h => rw [hr] at h; cases h
    | _ => exact same
  | adm _ _ _ _ he =>
    cases he with
    | bad => exact same
    | done h => rw [hr] at h; cases h
    | cut _ _ hf =>
      rcases hf with rfl | ⟨h, _⟩
      · exact same
      · rw [hr] at h; cases h
  | set _ _ _ he =>
    cases he with
    | bad => exact same
    | half h => rw [hr] at h; cases h
    | done h => rw [hr] at h; cases h
    | cut _ _ hf =>
      rcases hf with rfl | ⟨h, _⟩
      · exact same
      · rw [hr] at h; cases h
  | reset h' => exact absurd h' h
  | info => exact same
  | cut => exact same

/-- The state after a history from power-off with any contents of flash. -/
abbrev after (x : Ext) (f : Flash) (h : List (Op × Env)) : St := (run x ⟨f, none⟩ [] h).1
/-- The log of that history. -/
abbrev logOf (x : Ext) (f : Flash) (h : List (Op × Env)) : List Entry := (run x ⟨f, none⟩ [] h).2

theorem inv30_run (hx : x.Ok) (ht : ∀ k c, (x.cr.tdes k c).isSome) (f : Flash) (h : List (Op × Env))
    (hh : ∀ e ∈ h, e.2.all cutsOnly) : Inv30 x (after x f h) (logOf x f h) :=
  run_inv (fun _ _ _ _ he hi => inv30_step hx ht he hi) hh (fun _ e => by cases e)

theorem noRights {s : St} {log : List Entry} (hi : Inv30 x s log) (hn : ¬ AdminAuth x log) (hr : s.ram = some r) :
    r.admin = false := by
  cases h : r.admin with
  | false => rfl
  | true => exact absurd ((hi r hr).1 h) hn

/-- **C30.** After any history of commands, power cuts and resets, the management commands PUT DATA, GENERATE,
IMPORT, SET MANAGEMENT KEY and ALGORITHM EXTENSION are refused without any effect, unless the host has answered the
last challenge (or returned the last witness) with the management key in this session. Storage errors are excluded:
see `C30_storage_error`. -/
theorem C30_admin_needs_key (hx : x.Ok) (ht : ∀ k c, (x.cr.tdes k c).isSome) (f : Flash) (h : List (Op × Env))
    (hh : ∀ e ∈ h, e.2.all cutsOnly) (hn : ¬ AdminAuth x (logOf x f h)) (i : In) (hins : i.c.ins ∈ adminIns) (env : Env)
    (henv : env.all cutsOnly) :
    (step x (after x f h) (.apdu i) env).1.flash = (after x f h).flash ∧
    Refused i.c.ins (step x (after x f h) (.apdu i) env).2 := by
  have hi := inv30_run hx ht f h hh
  generalize after x f h = s at *
  obtain ⟨f1, o⟩ := s
  cases o with
  | none => exact ⟨rfl, .inl rfl⟩
  | some r =>
    have hr := noRights hi hn rfl
    show (exec (process x i) f1 r env).1.flash = _ ∧ Refused _ (exec (process x i) f1 r env).2
    rcases exec_of_wp (P := fun o f' _ => match o with
      | .cut => False
      | .done e => Refused i.c.ins (.reply e) ∧ f' = f1)
      (wp_mono (noAdmin_wp hins hr) (fun _ _ _ h => h.elim) (fun _ _ _ h => h) (fun _ _ h => h)) henv with
      ⟨f', r', e, h⟩ | ⟨f', r', a, e, h⟩
    · exact h.elim
    · rw [e]; exact ⟨h.2, h.1⟩

/-- **C30.** Without such an authentication, no command other than RESET changes a data object, a key, the
management key or the algorithm configuration, even if power is cut during the command. -/
theorem C30_nothing_managed (hx : x.Ok) (ht : ∀ k c, (x.cr.tdes k c).isSome) (f : Flash) (h : List (Op × Env))
    (hh : ∀ e ∈ h, e.2.all cutsOnly) (hn : ¬ AdminAuth x (logOf x f h)) (i : In) (hins : i.c.ins ≠ 0xFB) (env : Env)
    (henv : env.all cutsOnly) :
    Unmanaged (after x f h).flash (step x (after x f h) (.apdu i) env).1.flash := by
  have hi := inv30_run hx ht f h hh
  generalize after x f h = s at *
  have h := step_eff hx s (.apdu i) henv
  generalize (step x s (.apdu i) env).1 = s' at h ⊢
  generalize (step x s (.apdu i) env).2 = o at h ⊢
  cases h with
  | off => exact ⟨rfl, rfl, rfl, rfl⟩
  | apdu f r i a f' r' h => exact noAdmin_unmanaged (noRights hi hn rfl) hins h
  | apduCut f r i f' r' h => exact noAdmin_unmanaged (noRights hi hn rfl) hins h

theorem process_ga (h : i.c.cla = 0) (h' : i.c.ins = 0x87) {A : Fault → Prop} {Q E X}
    (hw : wp A (genAuth x i) Q E X f { r with write := none, read := none }) : wp A (process x i) Q E X f r := by
  have e : dispatch x i = genAuth x i := by simp [dispatch, h']
  unfold process
  rw [e]
  apply wp_ite <;> intro hc
  · rw [h] at hc; cases hc
  · wps
    · exact hw
    · simp_all
    · simp_all
    · simp_all

/-- GENERAL AUTHENTICATE up to its cases, without faults, for a key without touch policy. -/
theorem ga_path {k : Ref} {m : Meta} {t : Tlvs} {Q E X} (h0 : i.c.data[0]? = some 0x7C) (hk : refOf i.c.p2 = some k)
    (hp : i.c.p1 = 3) (hm : metaOf k f = some m) (ht : m.type = .tdea) (htc : m.touch ≠ 2 ∧ m.touch ≠ 3)
    (hT : (tlvs i.c.data).run = .ok (.ok t))
    (hw : wp noFault (match caseOf t with
    | .sign p l => caseSign x i k m p l
    | .extReq => caseExtReq x i k
    | .extResp p l => caseExtResp x i k p l
    | .mutReq => caseMutReq x i k
    | .mutResp wp wl cp cl => caseMutResp x i k wp wl cp cl
    | .ecdh p l => caseEcdh x i k m p l
    | .invalid => do
      Cmd.mod authReset
      throw (.sw SW.wrongData)) Q E X f r) : wp noFault (genAuth x i) Q E X f r := by
  have hl : i.c.data ≠ [] := by intro e; rw [e] at h0; cases h0
  have hl' : i.c.lc ≠ 0 := by simpa [Apdu.Capdu.lc] using hl
  have hkt : ∀ a, keyType a 3 = .tdea := fun a => rfl
  unfold genAuth
  apply wp_ite <;> intro h
  · exact absurd (by simpa using h) hl'
  apply wp_bind
  apply wp_rd (by simp [Apdu.Capdu.lc] at hl' ⊢; exact Nat.pos_of_ne_zero (by simpa using hl'))
  intro v hv
  rw [h0] at hv; cases hv
  apply wp_ite <;> intro h
  · exact absurd h (by decide)
  rw [hk]
  apply wp_ite <;> intro h
  · rw [hp] at h; simp at h
  apply wp_bind
  apply wp_rdOr
  · intro m' hm'
    rw [hm] at hm'; cases hm'
    apply wp_ite <;> intro h
    · rw [ht] at h; exact absurd h (by decide)
    apply wp_bind; apply wp_get
    apply wp_ite <;> intro h
    · rw [hp, hkt, ht] at h; exact absurd h (by decide)
    apply wp_bind
    apply wp_parse'
    · intro t' ht'
      rw [hT] at ht'; cases ht'
      apply wp_ite <;> intro h
      · simp [htc] at h
      · exact hw
    · intro sw h; rw [hT] at h; cases h
    · intro sw h; rw [hT] at h; cases h
  · intro h; rw [hm] at h; cases h
  · intro h; cases h
  · intro h; cases h

theorem tdesOr_good {k : Mgmt} {m : Meta} {v d : Bytes} {e : Reply} (hk : f.mgmt = some k) (hm : k.info = some m)
    (hd : x.cr.tdes k.key v = some d) {Q : Bytes → Flash → Ram → Prop} {E X} (hQ : Q d f r) :
    wp noFault (tdesOr x v e) Q E X f r := by
  unfold tdesOr
  apply wp_bind
  apply wp_rdOr
  · intro a _
    apply wp_bind
    apply wp_rdOr
    · intro b hb
      rw [hk] at hb; cases hb
      rw [hd]
      exact wp_pure hQ
    · intro h; rw [hk] at h; cases h
    · intro h; cases h
    · intro h; cases h
  · intro h; rw [hk] at h; simp [hm] at h
  · intro h; cases h
  · intro h; cases h

theorem chal_wp {k : Mgmt} {m : Meta} {d : Bytes} (hi : IsChallenge i) (hk : f.mgmt = some k) (hm : k.info = some m)
    (ht : m.type = .tdea) (htc : m.touch ≠ 2 ∧ m.touch ≠ 3) (hd : x.cr.tdes k.key (rnd8 i) = some d) :
    wp noFault (process x i) (fun a f' r' => a = .resp ([0x7C, 0x0A, 0x81, 0x08] ++ rnd8 i) 0x9000 ∧ f' = f ∧
      r'.auth = .external ∧ r'.chal = d) (fun _ _ _ => False) (fun _ _ => False) f r := by
  obtain ⟨h1, h2, h3, h4, h5⟩ := hi
  apply process_ga h1 h2
  apply ga_path (k := .adm) (m := m) (t := ⟨none, some (4, 0), none, none⟩) (by rw [h5]; rfl) (by rw [h4]; rfl) h3
    (by simp [metaOf, hk, hm]) ht htc (by rw [h5]; rfl)
  show wp _ (caseExtReq x i .adm) _ _ _ _ _
  unfold caseExtReq
  apply wp_bind; apply wp_mod
  apply wp_ite <;> intro h
  · exact absurd h (by decide)
  apply wp_bind; apply wp_mod
  apply wp_bind
  apply tdesOr_good hk hm hd
  apply wp_bind; apply wp_mod
  exact wp_pure ⟨rfl, rfl, rfl, rfl⟩

theorem resp_wp {k : Mgmt} {m : Meta} {d : Bytes} (hi : IsResponse i d) (hl : d.length = 8) (hk : f.mgmt = some k)
    (hm : k.info = some m) (ht : m.type = .tdea) (htc : m.touch ≠ 2 ∧ m.touch ≠ 3) (ha : r.auth = .external)
    (hc : r.chal = d) :
    wp noFault (process x i) (fun a f' r' => a = .sw 0x9000 ∧ f' = f ∧ r'.admin = true) (fun _ _ _ => False)
      (fun _ _ => False) f r := by
  obtain ⟨h1, h2, h3, h4, h5⟩ := hi
  apply process_ga h1 h2
  have hT : (tlvs i.c.data).run = .ok (.ok ⟨none, none, some (4, 8), none⟩) := by
    rw [h5]
    match d, hl with
    | [_, _, _, _, _, _, _, _], _ => rfl
  apply ga_path (k := .adm) (m := m) (t := ⟨none, none, some (4, 8), none⟩) (by rw [h5]; rfl) (by rw [h4]; rfl) h3
    (by simp [metaOf, hk, hm]) ht htc hT
  show wp _ (caseExtResp x i .adm 4 8) _ _ _ _ _
  unfold caseExtResp
  have e : rdRange i.c.data 4 8 = .ok d := by
    rw [h5]
    match d, hl with
    | [_, _, _, _, _, _, _, _], _ => rfl
  apply wp_bind; apply wp_get
  apply wp_ite <;> intro h
  · simp [ha] at h
  apply wp_bind
  rw [e]
  refine wp_pure (wp_bind (wp_pure ?_))
  apply wp_ite <;> intro h
  · simp [differs, hc] at h
  apply wp_bind; apply wp_mod
  exact wp_pure ⟨rfl, rfl, rfl⟩

/-- **C30.** The management key suffices: whoever asks for a challenge and answers it under the key gets the rights
(shown for a management key as installed, without touch policy). -/
theorem C30_key_suffices {i₁ i₂ : In} {k : Mgmt} {m : Meta} {d : Bytes} {env₁ env₂ : Env}
    (hk : f.mgmt = some k) (hm : k.info = some m) (ht : m.type = .tdea) (htc : m.touch ≠ 2 ∧ m.touch ≠ 3)
    (hc : IsChallenge i₁) (hd : x.cr.tdes k.key (rnd8 i₁) = some d) (hl : d.length = 8) (hr : IsResponse i₂ d)
    (he₁ : env₁.all noFault) (he₂ : env₂.all noFault) :
    let s₁ := step x ⟨f, some r⟩ (.apdu i₁) env₁
    let s₂ := step x s₁.1 (.apdu i₂) env₂
    Gave 0x81 (rnd8 i₁) (.apdu i₁) s₁.2 ∧ Ok s₂.2 ∧ s₂.1.flash = f ∧ ∃ r', s₂.1.ram = some r' ∧ r'.admin = true := by
  intro s₁ s₂
  rcases exec_of_wp (P := fun o f' r' => match o with
    | .cut => False
    | .done a => a = .resp ([0x7C, 0x0A, 0x81, 0x08] ++ rnd8 i₁) 0x9000 ∧ f' = f ∧ r'.auth = .external ∧ r'.chal = d)
    (wp_mono (chal_wp (r := r) hc hk hm ht htc hd) (fun _ _ _ h => h) (fun _ _ _ h => h.elim) (fun _ _ h => h)) he₁ with
    ⟨f', r', e, h⟩ | ⟨f', r1, a, e, rfl, hf1, ha, hc'⟩
  · exact h.elim
  rw [hf1] at e
  rcases exec_of_wp (P := fun o f' r' => match o with
    | .cut => False
    | .done a => a = .sw 0x9000 ∧ f' = f ∧ r'.admin = true)
    (wp_mono (resp_wp (x := x) hr hl hk hm ht htc ha hc') (fun _ _ _ h => h) (fun _ _ _ h => h.elim) (fun _ _ h => h)) he₂ with
    ⟨f', r', e', h⟩ | ⟨f', r2, a, e', rfl, hf2, ha'⟩
  · exact h.elim
  rw [hf2] at e'
  have e1 : s₁ = (⟨f, some r1⟩, .reply (.resp ([0x7C, 0x0A, 0x81, 0x08] ++ rnd8 i₁) 0x9000)) := e
  have e2 : s₂ = (⟨f, some r2⟩, .reply (.sw 0x9000)) := by
    show step x s₁.1 (.apdu i₂) env₂ = _
    rw [e1]; exact e'
  rw [e1, e2]
  exact ⟨⟨i₁, rfl, hc.2.1, rfl⟩, ⟨[], rfl⟩, rfl, r2, rfl, ha'⟩

end Verif.Piv
