import Verif.Lemmas.PgpGet
/-
An active OpenPGP applet has all its objects.
-/
set_option linter.unusedSimpArgs false
namespace Verif.Pgp
open Cmd Verif.Spec.Pgp Verif.Spec.PgpData Verif.KeyFile

variable {A : Fault → Prop} {x : Ext} {i : In} {f f' : Flash} {r r' : Ram} {o : Outcome Reply}

/-- All attributes that are read are there. -/
def DataHas (d : Data) : Prop :=
  d.name ≠ none ∧ d.login ≠ none ∧ d.lang ≠ none ∧ d.sex ≠ none ∧ d.pwStatus ≠ none ∧ d.ca1 ≠ none ∧ d.ca2 ≠ none ∧ d.ca3 ≠ none
def KeyHas (p : PKey) : Prop := p.fp ≠ none ∧ p.date ≠ none ∧ p.info ≠ none
def PinHas (p : Pin.Flash) : Prop := ∃ q, p = some q ∧ q.ctr ≠ none

/-- Nothing is missing. -/
structure Whole (f : Flash) : Prop where
  data : ∃ d, f.data = some d ∧ DataHas d
  keys : ∀ k, ∃ p, f.keys k = some p ∧ KeyHas p
  pins : ∀ w : Which, PinHas ((partF w).get f)

theorem Whole.lacks (h : Whole f) : ¬ Lacks f := by
  obtain ⟨⟨d, hd, h1, h2, h3, h4, h5, h6, h7, h8⟩, hk, hp⟩ := h
  rintro (⟨o, ho⟩ | ⟨w, hw⟩)
  · rcases o with _ | _ | _ | _ | _ | _ | k | k | k | k | k
    all_goals first
      | (simp [val, hd] at ho; done)
      | (simp [val, hd] at ho; contradiction)
      | (obtain ⟨p, hp, hp1, hp2, hp3⟩ := hk k; simp [val, metaOf, hp] at ho; contradiction)
      | (cases k <;> simp [val, hd] at ho <;> contradiction)
  · obtain ⟨q, hq, hc⟩ := hp w
    exact hc (hw q hq)

theorem Whole.of_vals (h : ∀ o, val o f ≠ none) (hp : ∀ w : Which, PinHas ((partF w).get f)) : Whole f := by
  have hn := h .name
  cases hd : f.data with
  | none => simp [val, hd] at hn
  | some d =>
    refine ⟨⟨d, hd, ?_⟩, fun k => ?_, hp⟩
    · have h1 := h .name; have h2 := h .login; have h3 := h .lang; have h4 := h .sex; have h5 := h .pw
      have h6 := h (.ca .sig); have h7 := h (.ca .dec); have h8 := h (.ca .aut)
      simp [val, hd] at h1 h2 h3 h4 h5 h6 h7 h8
      exact ⟨h1, h2, h3, h4, h5, h6, h7, h8⟩
    · have h1 := h (.fp k); have h2 := h (.date k); have h3 := h (.alg k)
      cases hk : f.keys k with
      | none => simp [val, hk] at h1
      | some p =>
        simp [val, metaOf, hk] at h1 h2 h3
        exact ⟨p, rfl, h1, h2, h3⟩

theorem Whole.vals (h : Whole f) (o : Obj) : val o f ≠ none := fun e => h.lacks (.inl ⟨o, e⟩)

theorem Whole.setData {d : Data} (h : Whole f) (hd : DataHas d) : Whole { f with data := some d } :=
  ⟨⟨d, rfl, hd⟩, h.keys, fun w => by have := h.pins w; cases w <;> exact this⟩

theorem Whole.setKey {k : K} {p : PKey} (h : Whole f) (hp : KeyHas p) : Whole (f.setKey k p) := by
  refine ⟨h.data, fun k' => ?_, fun w => by have := h.pins w; cases w <;> exact this⟩
  by_cases hk : k' = k
  · exact ⟨p, by simp [hk], hp⟩
  · obtain ⟨q, hq, h'⟩ := h.keys k'
    exact ⟨q, by simp [hk, hq], h'⟩

theorem Whole.setCert {k : K} {c : Bytes} (h : Whole f) : Whole (f.setCert k c) :=
  ⟨h.data, h.keys, fun w => by have := h.pins w; cases w <;> exact this⟩

theorem Whole.setPin {w : Which} {p : Pin.Flash} (h : Whole f) (hp : PinHas p) : Whole ((partF w).set p f) := by
  refine ⟨?_, ?_, fun w' => ?_⟩
  · cases w <;> exact h.data
  · cases w <;> exact h.keys
  · have := h.pins w'
    cases w <;> cases w' <;> first | exact hp | exact this

/-! ### The PINs -/

/-- A counter stays. -/
def PinMove (p p' : Pin.Flash) : Prop := PinHas p → PinHas p'
instance : PreOrd PinMove := ⟨fun _ h => h, fun h h' hf => h' (h hf)⟩

theorem wrFile_move {b : Bytes} : MovesF PinMove (Pin.wrFile b) := by
  apply MovesF.write
  rintro f f' h ⟨q, rfl, hc⟩
  simp only [Option.getD_some, Option.some.injEq] at h
  subst h
  exact ⟨_, rfl, hc⟩

theorem wrCtr_move {c : UInt8} : MovesF PinMove (Pin.wrCtr c) := by
  apply MovesF.write
  rintro f f' h ⟨q, rfl, hc⟩
  simp only [Option.map_some, Option.some.injEq] at h
  subst h
  exact ⟨_, rfl, by simp⟩

theorem wrDflt_move {c : UInt8} : MovesF PinMove (Pin.wrDflt c) := by
  apply MovesF.write
  rintro f f' h ⟨q, rfl, hc⟩
  simp only [Option.map_some, Option.some.injEq] at h
  subst h
  exact ⟨_, rfl, hc⟩

/-- Closes calls of the PIN files. -/
macro "pmv" : tactic => `(tactic| mvf (first | exact wrFile_move | exact wrCtr_move | exact wrDflt_move | exact MovesF.read _))

theorem pinVerify_move {cfg : Pin.Cfg} {st b : Bytes} {n : UInt8} : MovesF PinMove (Pin.verify cfg st b n) := by
  unfold Pin.verify; pmv
theorem pinUpdate_move {cfg : Pin.Cfg} {b : Bytes} {n : UInt8} : MovesF PinMove (Pin.update cfg b n) := by
  unfold Pin.update; pmv
theorem pinClear_move : MovesF PinMove Pin.clear := by
  unfold Pin.clear; pmv
theorem pinCreate_move {b : Bytes} {n : UInt8} : MovesF PinMove (Pin.create b n) := by
  unfold Pin.create; pmv
theorem pinTries_move : MovesF PinMove Pin.getRetries := by
  unfold Pin.getRetries; pmv
theorem pinSize_move : MovesF PinMove Pin.rdSize := MovesF.read _

/-! ### Commands -/

/-- Nothing gets lost, and the applet is neither activated nor terminated. -/
def WholeMove (f f' : Flash) : Prop := (Whole f → Whole f') ∧ termOf f' = termOf f
instance : PreOrd WholeMove := ⟨fun _ => ⟨id, rfl⟩, fun h h' => ⟨fun hf => h'.1 (h.1 hf), h'.2.trans h.2⟩⟩

theorem onPin_whole {α : Type} {w : Which} {m : Pin.M α} (h : MovesF PinMove m) : Moves WholeMove (onPin w m) :=
  Moves.zoomed h.lift fun f p hp => ⟨fun hw => hw.setPin (hp (hw.pins w)), by cases w <;> rfl⟩

theorem setData_whole {g : Data → Data} {e : Reply} (h : ∀ d, DataHas d → DataHas (g d)) (ht : ∀ d, (g d).term = d.term) :
    Moves WholeMove (setData g e) := by
  unfold setData
  apply Moves.wrOr
  intro f f' h'
  obtain ⟨d, hd, rfl⟩ := Option.map_eq_some_iff.mp h'
  refine ⟨fun hf => ?_, by simp [termOf, hd, ht]⟩
  obtain ⟨d', hd', hh⟩ := hf.data
  rw [hd] at hd'; injection hd' with e; subst e
  exact hf.setData (h _ hh)

theorem setKey_whole {k : K} {g : PKey → PKey} (h : ∀ p, KeyHas p → KeyHas (g p)) : Moves WholeMove (setKey k g) := by
  unfold setKey
  apply Moves.wrOr
  intro f f' h'
  obtain ⟨p, hp, rfl⟩ := Option.map_eq_some_iff.mp h'
  refine ⟨fun hf => ?_, rfl⟩
  obtain ⟨p', hp', hh⟩ := hf.keys k
  rw [hp] at hp'; injection hp' with e; subst e
  exact hf.setKey (h _ hh)

theorem setCert_whole {k : K} {c : Bytes} {e : Reply} : Moves WholeMove (Cmd.wrOr (fun f => some (f.setCert k c)) e : M Unit) := by
  apply Moves.wrOr
  intro f f' h'
  simp only [Option.some.injEq] at h'; subst h'
  exact ⟨fun hf => hf.setCert, rfl⟩

/-- Closes single writes. -/
macro "wdata" : tactic => `(tactic| first
  | with_reducible exact onPin_whole pinVerify_move
  | with_reducible exact onPin_whole pinUpdate_move
  | with_reducible exact onPin_whole pinClear_move
  | with_reducible exact onPin_whole pinCreate_move
  | with_reducible exact onPin_whole pinTries_move
  | with_reducible exact onPin_whole pinSize_move
  | ((with_reducible refine setData_whole (fun d h => ?_) (fun d => ?_))
     · obtain ⟨a, b, c, d, e, g, h, i⟩ := h
       refine ⟨?_, ?_, ?_, ?_, ?_, ?_, ?_, ?_⟩
       all_goals first | assumption | exact Option.some_ne_none _
     · rfl)
  | ((with_reducible refine setKey_whole (fun d h => ?_))
     obtain ⟨a, b, c⟩ := h
     refine ⟨?_, ?_, ?_⟩
     all_goals first | assumption | exact Option.some_ne_none _))

theorem verifyFirst_whole {w : Which} {n : Option Nat} : Moves WholeMove (verifyFirst x i w n) := by
  unfold verifyFirst; mvs wdata
theorem updateRest_whole {w : Which} {n : Option Nat} : Moves WholeMove (updateRest x i w n) := by
  unfold updateRest; mvs wdata
theorem verify_whole : Moves WholeMove (verify x i) := by
  unfold verify; mvs wdata
theorem changeRef_whole : Moves WholeMove (changeRef x i) := by
  unfold changeRef; mvs (first | with_reducible exact verifyFirst_whole | with_reducible exact updateRest_whole | wdata)
theorem resetRetry_whole : Moves WholeMove (resetRetry x i) := by
  unfold resetRetry needAdmin; mvs (first | with_reducible exact verifyFirst_whole | with_reducible exact updateRest_whole | wdata)

theorem url_whole {b : Bytes} {e : Reply} :
    Moves WholeMove (Cmd.wrOr (fun f => some { f with data := some { (f.data.getD Data.empty) with url := b } }) e : M Unit) := by
  apply Moves.wrOr
  intro f f' h'
  simp only [Option.some.injEq] at h'; subst h'
  refine ⟨fun hf => ?_, ?_⟩
  · obtain ⟨d, hd, hh⟩ := hf.data
    rw [hd]
    exact hf.setData hh
  · cases hd : f.data <;> simp [termOf, hd, Data.empty]

theorem putAttr_whole {c : Apdu.Capdu} {k : K} : Moves WholeMove (putAttr c k) := by
  unfold putAttr readMeta; mvs wdata
theorem putUif_whole {k : K} : Moves WholeMove (putUif i k) := by
  unfold putUif readMeta; mvs wdata
theorem putRc_whole {c : Apdu.Capdu} : Moves WholeMove (putRc x c) := by
  unfold putRc; mvs wdata
theorem putCert_whole {c : Apdu.Capdu} : Moves WholeMove (putCert c) := by
  unfold putCert; mvs (exact (fun _ _ h => by injection h with h; subst h; exact ⟨fun hf => hf.setCert, rfl⟩))
theorem putCache_whole {c : Apdu.Capdu} : Moves WholeMove (putCache c) := by
  unfold putCache; mvs wdata
theorem putPwStatus_whole {c : Apdu.Capdu} : Moves WholeMove (putPwStatus c) := by
  unfold putPwStatus; mvs wdata
theorem putAttrOf_whole {c : Apdu.Capdu} {lo hi : Nat} {w : M Unit} (h : Moves WholeMove w) : Moves WholeMove (putAttrOf c lo hi w) := by
  unfold putAttrOf; mvs exact h

theorem putData_whole : Moves WholeMove (putData x i) := by
  unfold putData needAdmin
  mvs (first
    | with_reducible exact putAttr_whole | with_reducible exact putUif_whole | with_reducible exact putRc_whole
    | with_reducible exact putCert_whole | with_reducible exact putCache_whole | with_reducible exact putPwStatus_whole
    | with_reducible exact putAttrOf_whole url_whole | ((with_reducible apply putAttrOf_whole); wdata))

/-- The commands that change PINs, and PUT DATA. -/
theorem process_whole (hi : i.c.ins = 0x20 ∨ i.c.ins = 0x24 ∨ i.c.ins = 0x2C ∨ i.c.ins = 0xDA) : Moves WholeMove (process x i) := by
  unfold process getAttr
  mvs fail
  all_goals
    rcases hi with hi | hi | hi | hi
    · rw [show dispatch x i _ = verify x i by simp [dispatch, hi]]; exact verify_whole
    · rw [show dispatch x i _ = changeRef x i by simp [dispatch, hi]]; exact changeRef_whole
    · rw [show dispatch x i _ = resetRetry x i by simp [dispatch, hi]]; exact resetRetry_whole
    · rw [show dispatch x i _ = putData x i by simp [dispatch, hi]]; exact putData_whole

/-! ### The installation -/

/-- Nothing gets lost. -/
def KeepMove (f f' : Flash) : Prop := Whole f → Whole f'
instance : PreOrd KeepMove := ⟨fun _ => id, fun h h' hf => h' (h hf)⟩

theorem keep {α : Type} {m : M α} (h : Moves WholeMove m) : Moves KeepMove m := h.mono fun _ _ h => h.1

theorem setData_keep {g : Data → Data} {e : Reply} (h : ∀ d, DataHas d → DataHas (g d)) :
    Moves KeepMove (setData g e) := by
  unfold setData
  apply Moves.wrOr
  intro f f' h' hf
  obtain ⟨d, hd, rfl⟩ := Option.map_eq_some_iff.mp h'
  obtain ⟨d', hd', hh⟩ := hf.data
  rw [hd] at hd'; injection hd' with e; subst e
  exact hf.setData (h _ hh)

/-- Closes single writes. -/
macro "kdata" : tactic => `(tactic| first
  | ((with_reducible refine keep ?_); wdata)
  | ((with_reducible refine setData_keep (fun d h => ?_)); exact h))

theorem writeKey_keep {k : K} {mat : Key.KeyMat} {m : Meta} : Moves KeepMove (writeKey k mat m) := by
  unfold writeKey
  refine .bind (.wrOr fun f f' h hf => ?_) fun _ => by kdata
  simp only [Option.some.injEq] at h; subst h
  obtain ⟨p, hp, hh⟩ := hf.keys k
  rw [hp]
  exact hf.setKey hh

theorem installAll_keep : Moves KeepMove installAll := by
  unfold installAll installData installKey installRest resetCtr createPin
  mvs (first
    | exact (fun _ _ h hf => by injection h with h; subst h; exact Whole.setCert hf)
    | with_reducible exact writeKey_keep
    | kdata)
  intro f f' h hf
  injection h with h; subst h
  obtain ⟨d, hd, hh⟩ := hf.data
  rw [hd]
  exact hf.setData hh

theorem installOp_keep (b : Bool) : Moves KeepMove (installOp b) := by
  unfold installOp install
  mvs with_reducible exact installAll_keep

theorem activate_keep (ha : i.c.ins = 0x44) : Moves KeepMove (process x i) := by
  unfold process
  refine Moves.ite (fun _ => .throw _) fun _ => .bind .get fun r => ?_
  split
  · exact .throw _
  · refine .bind (.mod _) fun _ => .bind ?_ fun t => Moves.ite (fun _ => .throw _) fun _ => ?_
    · unfold getAttr; exact .rdOr _ _
    · rw [show dispatch x i t = activate i.c t by simp [dispatch, ha]]
      unfold activate install
      mvs with_reducible exact installAll_keep

/-! ### Steps -/

theorem exec_keep {m : M Reply} (h : Moves KeepMove m) {env : Env} (hf : Whole f) : Whole (exec m f r env).1.flash := by
  have h' := h.run f r env
  unfold exec
  cases hr : runCmd m f r env with
  | mk f' p =>
    obtain ⟨r', o⟩ := p
    rw [hr] at h'
    cases o <;> exact h' hf

theorem exec_whole {m : M Reply} (h : Moves WholeMove m) {env : Env} : WholeMove f (exec m f r env).1.flash := by
  have h' := h.run f r env
  unfold exec
  cases hr : runCmd m f r env with
  | mk f' p =>
    obtain ⟨r', o⟩ := p
    rw [hr] at h'
    cases o <;> exact h'

/-- The PINs are as they were. -/
def PinsSame (f f' : Flash) : Prop := f'.pw1 = f.pw1 ∧ f'.pw3 = f.pw3 ∧ f'.rc = f.rc

theorem same_key {k : K} (h : KeyEff A k f o f') : PinsSame f f' := by
  cases h with
  | none => exact ⟨rfl, rfl, rfl⟩
  | fail o h hA f' hk hs =>
    rcases hs with ⟨mat, rfl⟩ | ⟨m, mat, org, hm, rfl⟩
    · exact ⟨rfl, rfl, rfl⟩
    · exact ⟨rfl, rfl, rfl⟩
  | done m hm mat org hd d =>
    unfold ctrReset
    split <;> exact ⟨rfl, rfl, rfl⟩

theorem same_cmd (h : CEff A x i f r o f' r')
    (hi : ¬ (i.c.ins = 0x20 ∨ i.c.ins = 0x24 ∨ i.c.ins = 0x2C ∨ i.c.ins = 0xDA)) (ha : i.c.ins ≠ 0x44) : PinsSame f f' := by
  have hrf : PinsSame f f := ⟨rfl, rfl, rfl⟩
  cases h with
  | read => exact hrf
  | cut => exact hrf
  | verify h => exact absurd (.inl h) hi
  | change h => exact absurd (.inr (.inl h)) hi
  | rrc h => exact absurd (.inr (.inr (.inl h))) hi
  | put h => exact absurd (.inr (.inr (.inr h))) hi
  | imp h o f' r' he =>
    cases he with
    | no => exact hrf
    | yes hv o f' r' he =>
      cases he with
      | none => exact hrf
      | key k hk o f' r' hr h => exact same_key h
  | gen h o f' r' he =>
    cases he with
    | none => exact hrf
    | read => exact hrf
    | key hp k hk o f' r' hr h => exact same_key h
  | sign h o f' r' he =>
    cases he with
    | noPin => exact hrf
    | bad => exact hrf
    | given hp p m h d hd r' hu hm h1 f' sw hf =>
      rcases hf with ⟨_, rfl, _⟩ | ⟨_, rfl, _⟩ | ⟨_, _, dt, n, hd, hn, rfl⟩ <;> exact ⟨rfl, rfl, rfl⟩
  | auth h o f' r' he =>
    cases he with
    | noPin => exact hrf
    | bad => exact hrf
    | given hp p m h d hd r' hu hm h1 f' sw hf =>
      rcases hf with ⟨_, rfl, _⟩ | ⟨_, rfl, _⟩ | ⟨_, _, dt, n, hd, hn, rfl⟩ <;> exact ⟨rfl, rfl, rfl⟩
  | dec h o f' r' he => cases he <;> exact hrf
  | term h o f' r' he => cases he <;> exact ⟨rfl, rfl, rfl⟩
  | act h => exact absurd h ha

theorem same_process (h : PEff A x i f r o f' r')
    (hi : ¬ (i.c.ins = 0x20 ∨ i.c.ins = 0x24 ∨ i.c.ins = 0x2C ∨ i.c.ins = 0xDA)) (ha : i.c.ins ≠ 0x44) : PinsSame f f' := by
  cases h with
  | cmd hc r0 hr t ht hg o f' r' h => exact same_cmd h hi ha
  | _ => exact ⟨rfl, rfl, rfl⟩

theorem factory_whole : Whole Verif.Spec.Pgp.factory := by
  refine ⟨⟨_, rfl, ?_⟩, fun k => ⟨_, rfl, ?_⟩, fun w => ?_⟩
  · refine ⟨?_, ?_, ?_, ?_, ?_, ?_, ?_, ?_⟩ <;> exact Option.some_ne_none _
  · refine ⟨?_, ?_, ?_⟩ <;> exact Option.some_ne_none _
  · cases w <;> exact ⟨_, rfl, Option.some_ne_none _⟩

/-- After an installation. -/
theorem inst_whole (h : InstEff A f r o f' r') (hk : Whole f → Whole f') (hi : Active f → Whole f) (ha : Active f') : Whole f' := by
  have mid : ∀ f', Mid f f' → Active f' → Active f := by
    intro f' hm ha
    have := active_iff.1 ha
    rcases hm.term with h | h
    · exact active_iff.2 (h ▸ this)
    · rw [h] at this; cases this
  cases h with
  | done => exact factory_whole
  | fail hA f' hm => exact hk (hi (mid _ hm ha))
  | cut hA f' hm => exact hk (hi (mid _ hm ha))

/-- An active applet has everything. -/
theorem step_whole (hx : x.Ok) {s : St} {op : Op} {env : Env} (hi : Active s.flash → Whole s.flash)
    (ha : Active (step x s op env).1.flash) : Whole (step x s op env).1.flash := by
  have he := step_eff (A := anyFault) (x := x) (s := s) (op := op) (env := env) hx anyAll
  obtain ⟨f, ram⟩ := s
  dsimp only at hi
  cases op with
  | boot =>
    have e : step x ⟨f, ram⟩ .boot env = exec (installOp false) f Ram.init env := by cases ram <;> rfl
    have hk : Whole f → Whole (step x ⟨f, ram⟩ .boot env).1.flash := by
      rw [e]; exact exec_keep (installOp_keep _)
    generalize (step x ⟨f, ram⟩ .boot env).1 = s', (step x ⟨f, ram⟩ .boot env).2 = out at he hk ha ⊢
    cases he with
    | off op h ho => exact absurd rfl ho
    | boot o f' r' h =>
      cases h with
      | nop => exact hi ha
      | cut => exact hi ha
      | inst h o f' r' h' => exact inst_whole h' hk hi ha
  | deselect => cases ram <;> exact hi ha
  | factory =>
    cases ram with
    | none => exact hi ha
    | some r =>
      have hk : Whole f → Whole (step x ⟨f, some r⟩ .factory env).1.flash := exec_keep (r := r) (env := env) (installOp_keep true)
      generalize (step x ⟨f, some r⟩ .factory env).1 = s', (step x ⟨f, some r⟩ .factory env).2 = out at he hk ha ⊢
      cases he with
      | off op h ho => cases h
      | factory r hr o f' r' h => exact inst_whole h hk hi ha
  | apdu i =>
    cases ram with
    | none => exact hi ha
    | some r =>
      by_cases hp : i.c.ins = 0x20 ∨ i.c.ins = 0x24 ∨ i.c.ins = 0x2C ∨ i.c.ins = 0xDA
      · have hm : WholeMove f (step x ⟨f, some r⟩ (.apdu i) env).1.flash := exec_whole (r := r) (env := env) (process_whole (x := x) hp)
        exact hm.1 (hi (active_iff.2 (hm.2 ▸ active_iff.1 ha)))
      by_cases h44 : i.c.ins = 0x44
      · have hk : Whole f → Whole (step x ⟨f, some r⟩ (.apdu i) env).1.flash := exec_keep (r := r) (env := env) (activate_keep (x := x) h44)
        generalize (step x ⟨f, some r⟩ (.apdu i) env).1 = s', (step x ⟨f, some r⟩ (.apdu i) env).2 = out at he hk ha ⊢
        cases he with
        | off op h ho => cases h
        | apdu i r hr o f' r' h =>
          cases h with
          | cla => exact hi ha
          | gate => exact hi ha
          | cut => exact hi ha
          | cmd hc r0 hr t ht hg o f' r' h =>
            by_cases hT : termOf f = some 0
            · exact hk (hi (active_iff.2 hT))
            have no : ∀ b : Byte, i.c.ins = b → b ≠ 0x44 → False := fun b h hb => hb (h ▸ h44)
            cases h with
            | act h ht o f' r' h => exact inst_whole h hk hi ha
            | read => exact hi ha
            | cut => exact hi ha
            | sign h => exact (no _ h.1 (by decide)).elim
            | dec h => exact (no _ h.1 (by decide)).elim
            | verify h => exact (no _ h (by decide)).elim
            | change h => exact (no _ h (by decide)).elim
            | rrc h => exact (no _ h (by decide)).elim
            | put h => exact (no _ h (by decide)).elim
            | imp h => exact (no _ h (by decide)).elim
            | gen h => exact (no _ h (by decide)).elim
            | auth h => exact (no _ h (by decide)).elim
            | term h => exact (no _ h (by decide)).elim
      · have hs := step_still hx (s := ⟨f, some r⟩) (op := .apdu i) (env := env) (fun h => (by cases h))
          (by rintro ⟨_, e, h⟩; cases e; exact hp (.inr (.inr (.inr h))))
          (by rintro (⟨⟨_, e, h⟩, _⟩ | h | ⟨h, _⟩)
              · cases e; exact h44 h
              · cases h
              · cases h)
        have hw := hi (hs.act ha)
        have hps : PinsSame f (step x ⟨f, some r⟩ (.apdu i) env).1.flash := by
          generalize (step x ⟨f, some r⟩ (.apdu i) env).1 = s', (step x ⟨f, some r⟩ (.apdu i) env).2 = out at he
          cases he with
          | off op h ho => cases h
          | apdu i r hr o f' r' h => exact same_process h hp h44
        refine .of_vals (fun o => by rw [hs.objs o]; exact hw.vals o) fun w => ?_
        have := hw.pins w
        obtain ⟨h1, h2, h3⟩ := hps
        cases w
        · show PinHas (step x ⟨f, some r⟩ (.apdu i) env).1.flash.pw1
          rw [h1]; exact this
        · show PinHas (step x ⟨f, some r⟩ (.apdu i) env).1.flash.pw3
          rw [h2]; exact this
        · show PinHas (step x ⟨f, some r⟩ (.apdu i) env).1.flash.rc
          rw [h3]; exact this

end Verif.Pgp
