import Verif.Lemmas.PgpData
import Verif.Props.PgpMore
/-
What each operation does to the data objects of the OpenPGP applet.
-/
set_option linter.unusedSimpArgs false
namespace Verif.Pgp
open Cmd Verif.Spec.Pgp Verif.Spec.PgpData Verif.KeyFile

variable {A : Fault → Prop} {x : Ext} {i : In} {f f' : Flash} {r r' : Ram} {o : Outcome Reply}

/-- Objects and certificates are as they were. -/
structure Still (f f' : Flash) : Prop where
  objs : SameObjs f f'
  fits : Fits f → Fits f'
  certs : f'.certs = f.certs
  act : Active f' → Active f

theorem Still.rfl' : Still f f := ⟨fun _ => rfl, id, rfl, id⟩

theorem Still.of_pins (h : PinsOnly f f') : Still f f' := by
  obtain ⟨h1, h2, h3⟩ := h
  obtain ⟨a, b, c, d, e, g⟩ := f
  obtain ⟨a', b', c', d', e', g'⟩ := f'
  dsimp at h1 h2 h3
  subst h1 h2 h3
  refine ⟨fun o => ?_, fun h => ⟨h.data, h.keys, h.certs⟩, rfl, id⟩
  rcases o with _ | _ | _ | _ | _ | _ | k | k | k | k | k
  all_goals first | rfl | (cases k <;> rfl)

theorem Still.trans {f1 : Flash} (h : Still f f1) (h' : Still f1 f') : Still f f' :=
  ⟨fun o => (h'.objs o).trans (h.objs o), fun hf => h'.fits (h.fits hf), h'.certs.trans h.certs, fun ha => h.act (h'.act ha)⟩

/-- A change of `pgp-data` that does not concern the objects. -/
theorem Still.of_data {d d' : Data} (hd : f.data = some d)
    (h : d'.name = d.name ∧ d'.login = d.login ∧ d'.lang = d.lang ∧ d'.sex = d.sex ∧ d'.url = d.url ∧
      d'.pwStatus = d.pwStatus ∧ d'.ca1 = d.ca1 ∧ d'.ca2 = d.ca2 ∧ d'.ca3 = d.ca3)
    (ht : d'.term = some 0 → d.term = some 0) :
    Still f { f with data := some d' } := by
  obtain ⟨h1, h2, h3, h4, h5, h6, h7, h8, h9⟩ := h
  refine ⟨fun o => val_data_other hd ?_, fun hf => hf.setData ?_, rfl, fun ⟨e, he, h⟩ => ⟨d, hd, ht (by cases he; exact h)⟩⟩
  · rcases o with _ | _ | _ | _ | _ | _ | k | k | k | k | k
    all_goals first | assumption | trivial | (cases k <;> assumption)
  · obtain ⟨a, b, c, d, e, g, h, i⟩ := hf.data d hd
    refine ⟨?_, ?_, ?_, ?_, ?_, ?_, ?_, ?_⟩
    all_goals simp only [h1, h2, h3, h4, h5, h7, h8, h9]; assumption

theorem still_newKey {k : K} {m : Meta} (hm : metaOf f k = some m) (mat : Key.KeyMat) (org : Byte) :
    Still f (newKey f k mat { m with origin := org }) := by
  obtain ⟨p, hp, hi⟩ := Option.bind_eq_some_iff.mp hm
  have e : newKey f k mat { m with origin := org } = f.setKey k { p with mat := mat, info := some { m with origin := org } } := by
    simp [newKey, hp]
  rw [e]
  refine ⟨fun o => ?_, fun hf => hf.setKey ?_, rfl, id⟩
  · by_cases h1 : o = .alg k
    · subst h1
      simp only [val, metaOf, setKey_keys, if_true, hp, hi, Option.bind_some, Option.map_some]
      rfl
    by_cases h2 : o = .uif k
    · subst h2
      simp only [val, metaOf, setKey_keys, if_true, hp, hi, Option.bind_some, Option.map_some]
    · exact val_setKey_other hp (fun h => absurd h (by rintro (h | h); exact h1 h; exact h2 h)) (fun _ => rfl) (fun _ => rfl)
  · obtain ⟨a, b, c⟩ := hf.keys k p hp
    refine ⟨a, b, fun m' e => ?_⟩
    injection e with e; subst e
    exact ⟨(c m hi).1, (c m hi).2⟩

theorem still_mat {k : K} (mat : Key.KeyMat) :
    Still f (f.setKey k { ((f.keys k).getD ⟨mat, none, none, none⟩) with mat := mat }) := by
  cases hp : f.keys k with
  | some p =>
    refine ⟨fun o => val_setKey_other hp (fun _ => rfl) (fun _ => rfl) (fun _ => rfl), fun hf => hf.setKey ?_, rfl, id⟩
    obtain ⟨a, b, c⟩ := hf.keys k p hp
    exact ⟨a, b, c⟩
  | none =>
    refine ⟨fun o => ?_, fun hf => hf.setKey ?_, rfl, id⟩
    · rcases o with _ | _ | _ | _ | _ | _ | k' | k' | k' | k' | k'
      all_goals first
        | rfl
        | (by_cases e : k' = k
           · subst e; simp [val, metaOf, hp]
           · simp [val, metaOf, e])
        | (cases k' <;> rfl)
    · exact ⟨fun v h => (by cases h), fun v h => (by cases h), fun v h => (by cases h)⟩

theorem still_ctr : Still f { f with data := f.data.map fun d => { d with ctr := some (0, 0, 0) } } := by
  cases hd : f.data with
  | none =>
    have e : ({ f with data := Option.map (fun d : Data => { d with ctr := some (0, 0, 0) }) none } : Flash) = f := by
      rw [Option.map_none, ← hd]
    rw [e]; exact .rfl'
  | some d => exact .of_data hd ⟨rfl, rfl, rfl, rfl, rfl, rfl, rfl, rfl, rfl⟩ (fun h => by first | exact h | cases h)

theorem still_key {k : K} (h : KeyEff A k f o f') : Still f f' := by
  cases h with
  | none => exact .rfl'
  | fail o h hA f' hk hs =>
    rcases hs with ⟨mat, rfl⟩ | ⟨m, mat, org, hm, rfl⟩
    · exact still_mat mat
    · exact still_newKey hm mat org
  | done m hm mat org hd d =>
    unfold ctrReset
    split
    · exact (still_newKey hm mat org).trans still_ctr
    · exact still_newKey hm mat org

/-- All but PUT DATA and the installation leave the objects alone. -/
theorem still_cmd (h : CEff A x i f r o f' r') (hi : i.c.ins ≠ 0xDA) (ha : i.c.ins = 0x44 → termOf f = some 0) : Still f f' := by
  cases h with
  | read => exact .rfl'
  | cut => exact .rfl'
  | verify h o f' r' he => exact .of_pins (verify_pins he)
  | change h o f' r' he => exact .of_pins (change_pins he)
  | rrc h o f' r' he => exact .of_pins (rrc_pins he)
  | put h => exact absurd h hi
  | imp h o f' r' he =>
    cases he with
    | no => exact .rfl'
    | yes hv o f' r' he =>
      cases he with
      | none => exact .rfl'
      | key k hk o f' r' hr h => exact still_key h
  | gen h o f' r' he =>
    cases he with
    | none => exact .rfl'
    | read => exact .rfl'
    | key hp k hk o f' r' hr h => exact still_key h
  | sign h o f' r' he =>
    cases he with
    | noPin => exact .rfl'
    | bad => exact .rfl'
    | given hp p m h d hd r' hu hm h1 f' sw hf =>
      rcases hf with ⟨_, rfl, _⟩ | ⟨_, rfl, _⟩ | ⟨_, _, dt, n, hd, hn, rfl⟩
      · exact .rfl'
      · exact .rfl'
      · exact .of_data hd ⟨rfl, rfl, rfl, rfl, rfl, rfl, rfl, rfl, rfl⟩ (fun h => by first | exact h | cases h)
  | auth h o f' r' he =>
    cases he with
    | noPin => exact .rfl'
    | bad => exact .rfl'
    | given hp p m h d hd r' hu hm h1 f' sw hf =>
      rcases hf with ⟨_, rfl, _⟩ | ⟨_, rfl, _⟩ | ⟨_, _, dt, n, hd, hn, rfl⟩
      · exact .rfl'
      · exact .rfl'
      · exact .of_data hd ⟨rfl, rfl, rfl, rfl, rfl, rfl, rfl, rfl, rfl⟩ (fun h => by first | exact h | cases h)
  | dec h o f' r' he => cases he <;> exact .rfl'
  | term h o f' r' he =>
    cases he with
    | bad => exact .rfl'
    | done hv d hd => exact .of_data hd ⟨rfl, rfl, rfl, rfl, rfl, rfl, rfl, rfl, rfl⟩ (fun h => by first | exact h | cases h)
  | act h ht => exact absurd (ha h) ht

/-! ### The installation -/

/-- Sizes are kept. -/
def FitsMove (f f' : Flash) : Prop := Fits f → Fits f'
instance : PreOrd FitsMove := ⟨fun _ h => h, fun h h' hf => h' (h hf)⟩

theorem setData_fits {g : Data → Data} {e : Reply} (h : ∀ d, DataFits d → DataFits (g d)) : Moves FitsMove (setData g e) := by
  unfold setData
  apply Moves.wrOr
  intro f f' h' hf
  obtain ⟨d, hd, rfl⟩ := Option.map_eq_some_iff.mp h'
  exact hf.setData (h d (hf.data d hd))

theorem setKey_fits {k : K} {g : PKey → PKey} (h : ∀ p, KeyFits k p → KeyFits k (g p)) : Moves FitsMove (setKey k g) := by
  unfold setKey
  apply Moves.wrOr
  intro f f' h' hf
  obtain ⟨p, hp, rfl⟩ := Option.map_eq_some_iff.mp h'
  exact hf.setKey (h p (hf.keys k p hp))

/-- Closes the goals about single writes. -/
macro "fdata" : tactic => `(tactic| (
  refine setData_fits fun d h => ?_
  obtain ⟨a, b, c, d, e, g, h, i⟩ := h
  refine ⟨?_, ?_, ?_, ?_, ?_, ?_, ?_, ?_⟩
  all_goals first | assumption | (intro v hv; injection hv with hv; subst hv; decide)))

theorem installData_fits : Moves FitsMove installData := by
  unfold installData
  mvs fdata
  intro f f' h hf
  simp only [Option.some.injEq] at h
  subst h
  refine hf.setData ?_
  cases hd : f.data with
  | some d =>
    obtain ⟨a, b, c, d, e, g, h, i⟩ := hf.data d hd
    exact ⟨a, b, c, d, by simp, g, h, i⟩
  | none => refine ⟨?_, ?_, ?_, ?_, by simp, ?_, ?_, ?_⟩ <;> intro v h <;> cases h

theorem installKey_fits {k : K} {u : Byte} (hu : u = if k = .dec then 2 else 1) : Moves FitsMove (installKey k u) := by
  unfold installKey writeKey
  have hm : MetaFits k ⟨.rsa2048, 0, u, 0, 0⟩ := ⟨hu, (fun h => by cases h), (fun h => by cases h), by split <;> exact (fun h => by cases h)⟩
  refine Moves.bind (Moves.bind ?_ fun _ => setKey_fits fun p h => ?_) fun _ => Moves.bind (setKey_fits fun p h => ?_) fun _ => setKey_fits fun p h => ?_
  · apply Moves.wrOr
    intro f f' h hf
    simp only [Option.some.injEq] at h
    subst h
    exact (still_mat _).fits hf
  · exact ⟨h.1, h.2, fun m e => by injection e with e; subst e; exact hm⟩
  · exact ⟨fun v e => (by injection e with e; subst e; decide), h.2, h.3⟩
  · exact ⟨h.1, fun v e => (by injection e with e; subst e; decide), h.3⟩

theorem installRest_fits : Moves FitsMove installRest := by
  unfold installRest resetCtr
  mvs fdata
  all_goals
    intro f f' h hf
    simp only [Option.some.injEq] at h
    subst h
    exact hf.setCert (by simp)

theorem onPin_fits {α : Type} {w : Which} {m : Pin.M α} : Moves FitsMove (onPin w m) :=
  Moves.zoom fun _ _ h => fits_pin h

theorem createPin_fits {w : Which} {d : Bytes} : Moves FitsMove (createPin w d) := by
  unfold createPin
  mvs exact onPin_fits

theorem installAll_fits : Moves FitsMove installAll := by
  unfold installAll
  mvs (first | exact installData_fits | exact installKey_fits rfl | exact installRest_fits | exact createPin_fits | fdata)

theorem install_fits (b : Bool) : Moves FitsMove (installOp b) := by
  unfold installOp install
  mvs exact installAll_fits

/-! ### Steps -/

/-- `openpgp_process_apdu` either refuses without effect on flash or runs the command. -/
theorem process_any {P : Outcome Reply → Flash → Ram → Prop}
    (hno : ∀ sw r', sw ≠ 0x9000 → P (.done (.sw sw)) f r') (hcut : ∀ r', P .cut f r')
    (h : ∀ r0 t, i.c.cla = 0 → track i.c r = some r0 → termOf f = some t →
      wp A (dispatch x i t) (fun a => P (.done a)) (fun a => P (.done a)) (P .cut) f r0) :
    wp A (process x i) (fun a => P (.done a)) (fun a => P (.done a)) (P .cut) f r := by
  unfold process
  apply wp_ite <;> intro hc
  · exact wp_throw (hno _ _ (by decide))
  have hc : i.c.cla = 0 := by simpa using hc
  apply wp_bind; apply wp_get
  cases ht : track i.c r with
  | none => exact wp_throw (hno _ _ (by decide))
  | some r0 =>
    simp only []
    unfold getAttr
    apply wp_bind; apply wp_mod
    apply wp_bind
    apply wp_rdOr
    · intro t htm
      apply wp_ite <;> intro hg
      · exact wp_throw (hno _ _ (by decide))
      · exact h r0 t hc ht htm
    · intro _; exact hno _ _ (by decide)
    · intro _; exact hno _ _ (by decide)
    · intro _; exact hcut _

/-- The outcome of a command, for a set of results that refusals are in. -/
theorem step_any {P : Outcome Reply → Flash → Ram → Prop} {s : St} {env : Env} (henv : env.all A) (hr : s.ram = some r)
    (hno : ∀ sw r', sw ≠ 0x9000 → P (.done (.sw sw)) s.flash r') (hcut : ∀ r', P .cut s.flash r')
    (h : ∀ r0 t, i.c.cla = 0 → track i.c r = some r0 → termOf s.flash = some t →
      wp A (dispatch x i t) (fun a => P (.done a)) (fun a => P (.done a)) (P .cut) s.flash r0) :
    ∃ o f' r', P o f' r' ∧ step x s (.apdu i) env = (⟨f', ramOf o r'⟩, outOf o) := by
  obtain ⟨f, ram⟩ := s
  dsimp only at hr hno hcut h
  subst hr
  exact exec_of_wp henv (process_any hno hcut h)

theorem ok_outOf {o : Outcome Reply} : Ok (outOf o) ↔ ∃ d, o = .done (.resp d 0x9000) := by
  cases o with
  | cut => simp [Ok, outOf]
  | done a => simp [Ok, outOf]

/-- PUT DATA. -/
theorem step_put {s : St} {env : Env} (hi : i.c.ins = 0xDA) :
    PutRes i s.flash (Ok (step x s (.apdu i) env).2) (step x s (.apdu i) env).1.flash := by
  cases hr : s.ram with
  | none =>
    obtain ⟨f, ram⟩ := s
    dsimp only at hr; subst hr
    exact .nop (by rintro ⟨d, h⟩; cases h)
  | some r =>
    obtain ⟨o, f', r', h, e⟩ := step_any (x := x) (i := i) (s := s) (env := env) anyAll hr
      (P := fun o f' _ => PutRes i s.flash (Ok (outOf o)) f')
      (fun sw r' h => .nop (fun hk => by
        obtain ⟨d, e⟩ := ok_outOf.mp hk
        injection e with e; injection e with _ e; exact h e))
      (fun r' => .nop (fun hk => by obtain ⟨d, e⟩ := ok_outOf.mp hk; cases e))
      (fun r0 t _ _ _ => by
        rw [show dispatch x i t = putData x i by simp [dispatch, hi]]
        refine wp_mono (putData_obj (A := anyFault) (x := x) (i := i) (f := s.flash) (r := r0)) ?_ ?_ ?_
        · intro a f' r' h
          have e : (∃ d, a = .resp d 0x9000) = Ok (outOf (.done a)) := by
            apply propext; rw [ok_outOf]; simp
          rw [← e]; exact h
        · intro a f' r' h
          have e : (∃ d, a = .resp d 0x9000) = Ok (outOf (.done a)) := by
            apply propext; rw [ok_outOf]; simp
          rw [← e]; exact h
        · intro f' r' h
          have e : False = Ok (outOf .cut) := by
            apply propext; rw [ok_outOf]; simp
          rw [← e]; exact h)
    rw [e]; exact h

theorem still_process (h : PEff A x i f r o f' r') (hi : i.c.ins ≠ 0xDA) (ha : i.c.ins = 0x44 → Active f) : Still f f' := by
  cases h with
  | cla => exact .rfl'
  | gate => exact .rfl'
  | cut => exact .rfl'
  | cmd hc r0 hr t ht hg o f' r' h =>
    refine still_cmd h hi fun e => ?_
    obtain ⟨d, hd, h0⟩ := ha e
    simp [termOf, hd, h0]

/-- Everything else, unless it installs. -/
theorem step_still (hx : x.Ok) {s : St} {op : Op} {env : Env} (hb : BootsOk op env) (hp : ¬ IsIns op 0xDA)
    (hr : ¬ Reinstalls s.flash op) : Still s.flash (step x s op env).1.flash := by
  by_cases hop : op = .boot
  · subst hop
    have he := step_eff (x := x) (s := s) (op := .boot) hx (hb rfl)
    generalize (step x s .boot env).1 = s', (step x s .boot env).2 = out at he
    cases he with
    | off op h ho => exact absurd rfl ho
    | boot o f' r' h =>
      cases h with
      | nop => exact .rfl'
      | cut => exact .rfl'
      | inst h => exact absurd (h.resolve_right (fun h => h rfl)) (fun h => hr (.inr (.inr ⟨rfl, h⟩)))
  · have he := step_eff (A := anyFault) (x := x) (s := s) (op := op) (env := env) hx anyAll
    generalize (step x s op env).1 = s', (step x s op env).2 = out at he
    cases he with
    | off => exact .rfl'
    | deselect => exact .rfl'
    | boot => exact absurd rfl hop
    | factory => exact absurd (.inr (.inl rfl)) hr
    | apdu i r hr' o f' r' h =>
      refine still_process h (fun e => hp ⟨i, rfl, e⟩) (fun e => Classical.byContradiction fun h => hr (.inl ⟨⟨i, rfl, e⟩, h⟩))

theorem exec_fits {m : M Reply} (h : Moves FitsMove m) {env : Env} (hf : Fits f) : Fits (exec m f r env).1.flash := by
  have h' := h.run f r env
  unfold exec
  cases hr : runCmd m f r env with
  | mk f' p =>
    obtain ⟨r', o⟩ := p
    rw [hr] at h'
    cases o <;> exact h' hf

theorem activate_fits (ha : i.c.ins = 0x44) : Moves FitsMove (process x i) := by
  unfold process
  refine Moves.ite (fun _ => .throw _) fun _ => .bind .get fun r => ?_
  split
  · exact .throw _
  · refine .bind (.mod _) fun _ => .bind ?_ fun t => Moves.ite (fun _ => .throw _) fun _ => ?_
    · unfold getAttr; exact .rdOr _ _
    · rw [show dispatch x i t = activate i.c t by simp [dispatch, ha]]
      unfold activate install
      mvs exact installAll_fits

/-- Sizes are kept by every operation. -/
theorem step_fits (hx : x.Ok) {s : St} {op : Op} {env : Env} (hf : Fits s.flash) : Fits (step x s op env).1.flash := by
  obtain ⟨f, ram⟩ := s
  dsimp only at hf
  cases op with
  | boot =>
    have e : step x ⟨f, ram⟩ .boot env = exec (installOp false) f Ram.init env := by cases ram <;> rfl
    rw [e]; exact exec_fits (install_fits _) hf
  | deselect => cases ram <;> exact hf
  | factory =>
    cases ram with
    | none => exact hf
    | some r => exact exec_fits (r := r) (env := env) (install_fits true) hf
  | apdu i =>
    cases ram with
    | none => exact hf
    | some r =>
      by_cases hp : i.c.ins = 0xDA
      · exact (step_put (x := x) (s := ⟨f, some r⟩) (env := env) hp).fits hf
      by_cases ha : i.c.ins = 0x44
      · exact exec_fits (r := r) (env := env) (activate_fits (x := x) ha) hf
      · refine (step_still hx (s := ⟨f, some r⟩) (env := env) (fun h => (by cases h)) (?_) ?_).fits hf
        · rintro ⟨_, e, h⟩; cases e; exact hp h
        · rintro (⟨⟨_, e, h⟩, _⟩ | h | ⟨h, _⟩)
          · cases e; exact ha h
          · cases h
          · cases h

end Verif.Pgp
