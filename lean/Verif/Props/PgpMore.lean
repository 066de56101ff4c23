import Verif.Props.PgpAdmin
/-
Properties of the OpenPGP applet: touch policies (C38), the signature counter (C39), termination and activation (C40).
-/
set_option linter.unusedSimpArgs false
namespace Verif.Pgp
open Cmd Verif.Spec.Pgp Verif.KeyFile

variable {A : Fault → Prop} {x : Ext} {i : In} {f f' : Flash} {r r' : Ram} {o : Outcome Reply}

/-! ### Flash under the PIN commands -/

theorem active_iff : Active f ↔ termOf f = some 0 := by
  unfold Active termOf
  cases f.data <;> simp

theorem terminated_iff : Terminated f ↔ termOf f = some 1 := by
  unfold Terminated termOf
  cases f.data <;> simp

/-- Only PINs differ. -/
structure PinsOnly (f f' : Flash) : Prop where
  data : f'.data = f.data
  keys : f'.keys = f.keys
  certs : f'.certs = f.certs

theorem PinsOnly.rfl' : PinsOnly f f := ⟨rfl, rfl, rfl⟩
theorem PinsOnly.set {w : Which} {p : Pin.Flash} : PinsOnly f ((partF w).set p f) := by
  cases w <;> exact ⟨rfl, rfl, rfl⟩
theorem PinsOnly.trans {f1 : Flash} (h : PinsOnly f f1) (h' : PinsOnly f1 f') : PinsOnly f f' :=
  ⟨h'.1.trans h.1, h'.2.trans h.2, h'.3.trans h.3⟩

theorem first_pins {w : Which} {size : Option Nat} {e : Option Reply} (h : FirstEff A x i w size f r e f' r') :
    PinsOnly f f' := by
  cases h
  exact .set

theorem rest_pins {w : Which} {size : Option Nat} (h : RestEff A x i w size f r o f' r') : PinsOnly f f' := by
  cases h with
  | ub => exact .rfl'
  | short => exact .rfl'
  | upd => exact .set
  | cut hc f' r' h hf =>
    rcases hf with rfl | ⟨_, rfl⟩
    · exact .rfl'
    · exact .set

theorem ch_pins {w w' : Which} (h : ChEff A x i w w' f r o f' r') : PinsOnly f f' := by
  cases h with
  | cut => exact .rfl'
  | stop size hs e f' r' h => exact first_pins h
  | upd size hs f1 r1 h o f' r' h' => exact (first_pins h).trans (rest_pins h')

theorem verify_pins (h : VerifyEff A x i f r o f' r') : PinsOnly f f' := by
  cases h with
  | chk => exact .set
  | _ => exact .rfl'

theorem change_pins (h : ChangeEff A x i f r o f' r') : PinsOnly f f' := by
  cases h with
  | param => exact .rfl'
  | pw1 _ _ o f' r' h => exact ch_pins h
  | pw3 _ _ o f' r' h => exact ch_pins h

theorem rrc_pins (h : RrcEff A x i f r o f' r') : PinsOnly f f' := by
  cases h with
  | bad => exact .rfl'
  | rc _ _ _ o f' r' h => exact ch_pins h
  | admin _ _ _ o f' r' h => exact rest_pins h
  | cut => exact .rfl'

theorem PinsOnly.touch (h : PinsOnly f f') {k : K} : touchOf f' k = touchOf f k := by
  unfold touchOf metaOf; rw [h.keys]
theorem PinsOnly.ctr (h : PinsOnly f f') : ctrOf f' = ctrOf f := by unfold ctrOf; rw [h.data]
theorem PinsOnly.term (h : PinsOnly f f') : termOf f' = termOf f := by unfold termOf; rw [h.data]

/-! ### C38: permanent touch policies -/

theorem ctrReset_touch {k k' : K} : touchOf (ctrReset k f) k' = touchOf f k' := by
  unfold ctrReset; split <;> rfl

theorem key_touch {k k' : K} (h : KeyEff A k f o f') (ht : touchOf f k' = some 4) : touchOf f' k' = some 4 := by
  cases h with
  | none => exact ht
  | fail o h hA f' hk => exact hk.touch _ ht
  | done m hm mat org hd d => rw [ctrReset_touch]; exact (newKey_keep hm mat org).touch _ ht

theorem put_keep (h : PutEff A i f r o f' r') : KeepBut f f' := by
  cases h with
  | done a f' r' h => exact h.1.but
  | cut h f' r' hk => exact hk.but

theorem touch_cmd {k : K} (h : CEff A x i f r o f' r') (ht : touchOf f k = some 4) :
    touchOf f' k = some 4 ∨ (i.c.ins = 0x44 ∧ ¬ Active f) := by
  cases h with
  | read => exact .inl ht
  | cut => exact .inl ht
  | verify h o f' r' he => exact .inl (by rw [(verify_pins he).touch]; exact ht)
  | change h o f' r' he => exact .inl (by rw [(change_pins he).touch]; exact ht)
  | rrc h o f' r' he => exact .inl (by rw [(rrc_pins he).touch]; exact ht)
  | put h o f' r' he =>
    left
    cases he with
    | no => exact ht
    | yes h o f' r' h' => exact (put_keep h').touch _ ht
  | imp h o f' r' he =>
    left
    cases he with
    | no => exact ht
    | yes h o f' r' h' =>
      cases h' with
      | none => exact ht
      | key k' hk o f' r' hr h => exact key_touch h ht
  | gen h o f' r' he =>
    left
    cases he with
    | none => exact ht
    | read => exact ht
    | key hp k' hk o f' r' hr h => exact key_touch h ht
  | sign h o f' r' he =>
    left
    cases he with
    | noPin => exact ht
    | bad => exact ht
    | given hp p m h d hd r' hu hm h1 f' sw hf =>
      rcases hf with ⟨_, rfl, _⟩ | ⟨_, rfl, _⟩ | ⟨_, _, dt, n, _, _, rfl⟩ <;> exact ht
  | auth h o f' r' he =>
    left
    cases he with
    | noPin => exact ht
    | bad => exact ht
    | given hp p m h d hd r' hu hm h1 f' sw hf =>
      rcases hf with ⟨_, rfl, _⟩ | ⟨_, rfl, _⟩ | ⟨_, _, dt, n, _, _, rfl⟩ <;> exact ht
  | dec h o f' r' he => cases he <;> exact .inl ht
  | term h o f' r' he => cases he <;> exact .inl ht
  | act h h0 => exact .inr ⟨h, fun e => h0 (active_iff.1 e)⟩

theorem touch_step (hx : x.Ok) {s : St} {op : Op} {env : Env} {k : K} (hb : BootsOk op env)
    (ht : touchOf s.flash k = some 4) (hr : ¬ Reinstalls s.flash op) : touchOf (step x s op env).1.flash k = some 4 := by
  have key : ∀ A, SEff A x s op (step x s op env).1 (step x s op env).2 → (op = .boot → ¬ A .fail) →
      touchOf (step x s op env).1.flash k = some 4 := by
    intro A h hA
    generalize (step x s op env).1 = s' at h ⊢
    generalize (step x s op env).2 = out at h
    cases h with
    | off => exact ht
    | deselect => exact ht
    | boot o f' r1 h =>
      cases h with
      | nop => exact ht
      | inst h =>
        rcases h with h | h
        · exact absurd (.inr (.inr ⟨rfl, h⟩)) hr
        · exact absurd h (hA rfl)
      | cut => exact ht
    | factory => exact absurd (.inr (.inl rfl)) hr
    | apdu i r hr0 o f' r1 h =>
      cases h with
      | cla => exact ht
      | gate => exact ht
      | cut => exact ht
      | cmd hc r0 hr' t ht' hg o f' r' h =>
        rcases touch_cmd h ht with h | h
        · exact h
        · exact absurd (.inl ⟨⟨i, rfl, h.1⟩, h.2⟩) hr
  by_cases e : op = .boot
  · exact key cutsOnly (step_eff hx (hb e)) fun _ h => h rfl
  · exact key anyFault (step_eff hx anyAll) fun h => absurd h e

/-- Every entry of a log that began empty comes from the history. -/
theorem run_all (P : St → Op → Out → Prop) {s : St} {log : List Entry} : ∀ {h : List (Op × Env)},
    (∀ e ∈ (run x s log h).2, P e.1 e.2.1 e.2.2) → ∀ e ∈ log, P e.1 e.2.1 e.2.2 := by
  intro h
  induction h generalizing s log with
  | nil => exact fun hp => hp
  | cons a h ih =>
    obtain ⟨op, env⟩ := a
    intro hp e he
    unfold run at hp
    exact ih hp e (List.mem_cons_of_mem _ he)

/-- Induction over a history with a condition on the log. -/
theorem run_log {I : St → Prop} {P : Op → Env → Prop} {L : St → Op → Out → Prop}
    (hstep : ∀ s op env, P op env → I s → L s op (step x s op env).2 → I (step x s op env).1) :
    ∀ (h : List (Op × Env)) (s : St) (log : List Entry), (∀ e ∈ h, P e.1 e.2) → I s →
      (∀ e ∈ (run x s log h).2, L e.1 e.2.1 e.2.2) → I (run x s log h).1
  | [], _, _, _, hi, _ => hi
  | (op, env) :: h, s, log, hp, hi, hl => by
    unfold run at hl ⊢
    refine run_log hstep h _ _ (fun e he => hp e (List.mem_cons_of_mem _ he)) ?_ hl
    exact hstep s op env (hp _ (List.mem_cons_self ..)) hi (run_all L hl _ (List.mem_cons_self ..))

/-- C38: a permanent touch policy stays, through every history of commands, restarts, power cuts and (except while the
device starts) storage errors, until the applet is installed anew. -/
theorem C38_permanent_stays (hx : x.Ok) (s : St) (k : K) (h : List (Op × Env)) (hb : ∀ e ∈ h, BootsOk e.1 e.2)
    (ht : touchOf s.flash k = some permanent) (hr : ∀ e ∈ (run x s [] h).2, ¬ Reinstalls e.1.flash e.2.1) :
    touchOf (run x s [] h).1.flash k = some permanent :=
  run_log (x := x) (I := fun s => touchOf s.flash k = some 4) (P := BootsOk) (L := fun s op _ => ¬ Reinstalls s.flash op)
    (fun s op env hb ht hr => touch_step hx hb ht hr) h s [] hb ht hr

theorem touched_cmd {r0 : Ram} (h : CEff A x i f r0 o f' r') (ho : o ≠ .cut) :
    r'.lastTouch = r0.lastTouch ∨ ((IsSign i ∨ IsDecipher i ∨ IsAuth i) ∧ i.nfc = false ∧ i.present = true ∧
      r'.lastTouch = i.tick') := by
  cases h with
  | read h hs hd hi a r' hr hb => exact .inl hr.touch
  | cut => exact absurd rfl ho
  | verify h o f' r' he =>
    left
    cases he with
    | param => rfl
    | cut => exact absurd rfl ho
    | logout => rw [setR_touch]; unfold modeOff; repeat' split <;> rfl
    | query => unfold modeOff; repeat' split <;> rfl
    | chk _ _ _ rc ctr p q hv r' hr => rw [hr, setR_touch]; unfold modeOff modeOn; repeat' split <;> rfl
  | change h o f' r' he =>
    left
    cases he with
    | param => rfl
    | pw1 _ _ o f' r' h => exact (ch_modes h ho).touch
    | pw3 _ _ o f' r' h => exact (ch_modes h ho).touch
  | rrc h o f' r' he => exact .inl (rrc_modes he ho).1.touch
  | put h o f' r' he => exact .inl (adm_same he ho fun _ _ _ h ho => put_same h ho).touch
  | imp h o f' r' he => exact .inl (adm_same he ho fun _ _ _ h ho => imp_same h ho).touch
  | gen h o f' r' he => exact .inl (gen_same he ho).touch
  | sign h o f' r' he => exact (sign_ram he ho).touch.imp id fun e => ⟨.inl h, e⟩
  | auth h o f' r' he => exact (sign_ram he ho).touch.imp id fun e => ⟨.inr (.inr h), e⟩
  | dec h o f' r' he =>
    have : Touching i r0 r' := by
      cases he with
      | noPin => exact .inl rfl
      | bad hp o h r' hu => exact hu ho
      | given hp p m h d r' hu => exact hu
    rcases this with rfl | ⟨h1, h2, rfl⟩
    · exact .inl rfl
    · exact .inr ⟨.inr (.inl h), h1, h2, rfl⟩
  | term h o f' r' he => exact .inl (term_same he ho).touch
  | act h ht o f' r' he => exact .inl (inst_ram he ho).2.2.2

theorem invTouch_step (hx : x.Ok) {s : St} {log : List Entry} {op : Op} {env : Env}
    (hi : ∀ r, s.ram = some r → r.lastTouch = 2 ^ 32 - 1 ∨ TouchedAt r.lastTouch log) :
    ∀ r, (step x s op env).1.ram = some r → r.lastTouch = 2 ^ 32 - 1 ∨
      TouchedAt r.lastTouch ((s, op, (step x s op env).2) :: log) := by
  have h := step_eff (A := anyFault) hx (s := s) (op := op) (env := env) anyAll
  generalize (step x s op env).1 = s' at h ⊢
  generalize (step x s op env).2 = out at h ⊢
  intro r' hr'
  cases h with
  | off op h ho => rw [h] at hr'; cases hr'
  | deselect r h =>
    cases hr'
    exact (hi r h).imp id fun h => .inr ⟨h, by simp, by simp⟩
  | boot o f' r1 h =>
    obtain ⟨ho, rfl⟩ := ramOf_some hr'
    exact .inl (boot_ram h ho).2.2.2
  | factory r hr o f' r1 h =>
    obtain ⟨ho, rfl⟩ := ramOf_some hr'
    rw [(inst_ram h ho).2.2.2]
    exact (hi r hr).imp id fun h => .inr ⟨h, outOf_ne_cut ho, by simp⟩
  | apdu i r hr o f' r1 h =>
    obtain ⟨ho, rfl⟩ := ramOf_some hr'
    have : r'.lastTouch = r.lastTouch ∨ ((IsSign i ∨ IsDecipher i ∨ IsAuth i) ∧ i.nfc = false ∧ i.present = true ∧
        r'.lastTouch = i.tick') := by
      cases h with
      | cla => exact .inl rfl
      | gate r' hr => exact .inl hr.same.touch
      | cut => exact absurd rfl ho
      | cmd hc r0 hr0 t ht hg o f' r' h => rw [← hr0.same.touch]; exact touched_cmd h ho
    rcases this with h | ⟨h1, h2, h3, h4⟩
    · rw [h]
      exact (hi r hr).imp id fun h => .inr ⟨h, outOf_ne_cut ho, by simp⟩
    · exact .inr (.inl ⟨i, rfl, h1, h2, h3, h4.symm⟩)

/-- C38: a key whose policy asks for touch (on or permanent) is used only over NFC, or with the user present during the
command, or less than the cache time (in seconds) after the user was last present for such a command since power-up. -/
theorem C38_touch_needed (hx : x.Ok) (f : Flash) (h : List (Op × Env)) (i : In) (env : Env) (t : Byte)
    (ht : touchOf (run x ⟨f, none⟩ [] h).1.flash (usedKey i) = some t) (htt : t = 3 ∨ t = permanent)
    (hi : IsSign i ∨ IsDecipher i ∨ IsAuth i) (hclk : i.tick < 2 ^ 32)
    (hg : Given (step x (run x ⟨f, none⟩ [] h).1 (.apdu i) env).2) :
    i.nfc = true ∨ i.present = true ∨
    ∃ t0, ∃ cache : Byte, TouchedAt t0 (run x ⟨f, none⟩ [] h).2 ∧ t0 < i.tick ∧ i.tick - t0 < cache.toNat * 1000 ∧
      ∃ r, (run x ⟨f, none⟩ [] h).1.ram = some r ∧ r.cache = cache := by
  obtain ⟨d, sw, h1, h2⟩ := hg
  obtain ⟨r, p, m, hr, hu, _⟩ := given_usable hx h1 h2 hi
  have htm : m.touch = t := by
    simp only [touchOf, metaOf, hu.key, hu.info, Option.bind_some, Option.map_some, Option.some.injEq] at ht
    exact ht
  rcases hu.touch (by rw [htm]; exact htt) with h | h | ⟨h3, h4⟩
  · exact .inl h
  · exact .inr (.inl h)
  · right; right
    have inv := run_inv (x := x) (I := fun log s => ∀ r, s.ram = some r → r.lastTouch = 2 ^ 32 - 1 ∨ TouchedAt r.lastTouch log)
      (P := fun _ _ => True) (fun s log op env _ hi => invTouch_step hx hi) h ⟨f, none⟩ [] (fun _ _ => trivial)
      (fun r h => by cases h) r hr
    rcases inv with e | e
    · omega
    · exact ⟨_, _, e, h3, h4, r, hr, rfl⟩

/-! ### C39: the signature counter -/

theorem incr_val (n : Byte × Byte × Byte) : ctrVal (incr n) = (ctrVal n + 1) % 2 ^ 24 := by
  obtain ⟨a, b, c⟩ := n
  have ha := a.toNat_lt
  have hb := b.toNat_lt
  have hc := c.toNat_lt
  have k : ∀ y : Byte, (y + 1).toNat = (y.toNat + 1) % 256 := fun y => by simp [UInt8.toNat_add]
  have z : ∀ y : Byte, y + 1 ≠ 0 → y.toNat + 1 < 256 := by
    intro y h
    have h1 : (y + 1).toNat ≠ 0 := fun e => h (by apply UInt8.toNat_inj.1; simpa using e)
    rw [k] at h1
    have := y.toNat_lt
    omega
  have z' : ∀ y : Byte, y + 1 = 0 → y.toNat = 255 := by
    intro y h
    have h1 : (y + 1).toNat = 0 := by rw [h]; rfl
    rw [k] at h1
    have := y.toNat_lt
    omega
  unfold incr
  simp only [bne_iff_ne, ne_eq]
  split
  · next h => have := z _ h; simp only [ctrVal, k]; omega
  · next h =>
    have h := z' c (by simpa using h)
    split
    · next h' => have := z _ h'; simp only [ctrVal, k]; simp; omega
    · next h' =>
      have h' := z' b (by simpa using h')
      simp only [ctrVal, k]
      simp
      omega

theorem counter_eq : counter f = (ctrOf f).map ctrVal := rfl

theorem plain {out : Out} {op : Op} {m : Nat} (hc : ctrOf f' = ctrOf f) (hm : counter f = some m) (ho : ¬ Ok out) :
    ∃ n, counter f' = some n ∧ Counted f op out m n := by
  refine ⟨m, by rw [counter_eq, hc]; exact hm, ?_⟩
  by_cases h : Reinstalls f op
  · exact .inr (.inr (.inl ⟨h, .inr ⟨ho, rfl⟩⟩))
  · exact .inr (.inr (.inr ⟨fun e => ho e.2, fun e => ho e.2, h, rfl⟩))

/-- Neither a signature nor a new signature key nor an installation. -/
theorem other {out : Out} {m : Nat} (hc : ctrOf f' = ctrOf f) (hm : counter f = some m)
    (h1 : ¬ IsSign i) (h2 : ¬ NewSigKey (.apdu i)) (h3 : i.c.ins ≠ 0x44) :
    ∃ n, counter f' = some n ∧ Counted f (.apdu i) out m n := by
  refine ⟨m, by rw [counter_eq, hc]; exact hm, .inr (.inr (.inr ⟨?_, fun e => h2 e.1, ?_, rfl⟩))⟩
  · rintro ⟨⟨i', e, h⟩, _⟩
    injection e with e; subst e; exact h1 h
  · rintro (⟨⟨i', e, h⟩, _⟩ | h | ⟨h, _⟩)
    · injection e with e; subst e; exact h3 h
    · cases h
    · cases h

theorem not_new (h1 : i.c.ins ≠ 0x47) (h2 : i.c.ins ≠ 0xDB) : ¬ NewSigKey (.apdu i) := by
  rintro ⟨i', e, h | h⟩
  · injection e with e; subst e; exact h1 h.1
  · injection e with e; subst e; exact h2 h.1

theorem inst_count {op : Op} {m : Nat} (h : InstEff A f r o f' r') (hr : Reinstalls f op) (hm : counter f = some m) :
    ∃ n, counter f' = some n ∧ Counted f op (outOf o) m n := by
  have mid : Mid f f' → ¬ Ok (outOf o) → ∃ n, counter f' = some n ∧ Counted f op (outOf o) m n := by
    intro hm' ho
    rcases hm'.ctr with e | e
    · exact plain e hm ho
    · exact ⟨0, by rw [counter_eq, e]; rfl, .inr (.inr (.inl ⟨hr, .inl rfl⟩))⟩
  cases h with
  | done => exact ⟨0, rfl, .inr (.inr (.inl ⟨hr, .inl rfl⟩))⟩
  | fail h f' hm' r' hr' => exact mid hm' (not_ok_of_bad bad_io)
  | cut h f' hm' r' => exact mid hm' cut_not_ok

theorem key_count {k : K} {m : Nat} (h : KeyEff A k f o f') (hm : counter f = some m)
    (hk : k = .sig ↔ NewSigKey (.apdu i)) (hs : ¬ IsSign i) (h44 : i.c.ins ≠ 0x44) :
    ∃ n, counter f' = some n ∧ Counted f (.apdu i) (outOf o) m n := by
  cases h with
  | none o h =>
    refine plain rfl hm ?_
    rcases h with h | ⟨rfl, _⟩
    · exact not_ok_of_bad h
    · exact cut_not_ok
  | fail o h hA f' hk' =>
    refine plain hk'.ctr hm ?_
    rintro ⟨d, hd⟩
    cases o with
    | cut => cases hd
    | done a =>
      have : a = .resp d 0x9000 := by injection hd
      exact h d (by rw [this])
  | done mt hmt mat org hd d =>
    have e1 := (newKey_keep hmt mat org).ctr
    by_cases hkk : k = .sig
    · refine ⟨0, ?_, .inr (.inl ⟨hk.1 hkk, ⟨d, rfl⟩, rfl⟩)⟩
      subst hkk
      obtain ⟨dt, hdt⟩ := Option.ne_none_iff_exists'.1 (hd rfl)
      have : (newKey f .sig mat { mt with origin := org }).data = some dt := hdt
      rw [counter_eq]
      unfold ctrReset ctrOf
      simp only [if_pos, this, Option.map_some, Option.bind_some]
      rfl
    · have e2 : ctrReset k (newKey f k mat { mt with origin := org }) = newKey f k mat { mt with origin := org } := by
        unfold ctrReset; rw [if_neg hkk]
      rw [e2]
      exact other e1 hm hs (fun h => hkk (hk.2 h)) h44

theorem count_cmd {m : Nat} (h : CEff A x i f r o f' r') (hm : counter f = some m) :
    ∃ n, counter f' = some n ∧ Counted f (.apdu i) (outOf o) m n := by
  have oth : i.c.ins ∉ [0x2A, 0x47, 0xDB, 0x44] → ctrOf f' = ctrOf f →
      ∃ n, counter f' = some n ∧ Counted f (.apdu i) (outOf o) m n := by
    intro h1 h2
    simp only [List.mem_cons, List.not_mem_nil, or_false, not_or] at h1
    exact other h2 hm (fun e => h1.1 e.1) (not_new h1.2.1 h1.2.2.1) h1.2.2.2
  cases h with
  | read h hs hd hi a r' hr hb =>
    simp only [List.mem_cons, List.not_mem_nil, or_false, not_or] at h
    rcases hb with hb | ⟨hb, _⟩
    · exact plain rfl hm (not_ok_of_bad hb)
    · exact other rfl hm hs (not_new h.2.2.2.2.2.1 h.2.2.2.2.1) hb
  | cut => exact plain rfl hm cut_not_ok
  | verify h o f' r' he => exact oth (by rw [h]; decide) (verify_pins he).ctr
  | change h o f' r' he => exact oth (by rw [h]; decide) (change_pins he).ctr
  | rrc h o f' r' he => exact oth (by rw [h]; decide) (rrc_pins he).ctr
  | put h o f' r' he =>
    refine oth (by rw [h]; decide) ?_
    cases he with
    | no => rfl
    | yes h o f' r' h' => exact (put_keep h').ctr
  | imp h o f' r' he =>
    have hs : ¬ IsSign i := fun e => absurd e.1 (by rw [h]; decide)
    have h44 : i.c.ins ≠ 0x44 := by rw [h]; decide
    cases he with
    | no => exact plain rfl hm (not_ok_of_bad (bad_sw (by decide)))
    | yes _ o f' r' h' =>
      cases h' with
      | none o hb =>
        refine plain rfl hm ?_
        rcases hb with h | ⟨rfl, _⟩
        · exact not_ok_of_bad h
        · exact cut_not_ok
      | key k hk o f' r' hr hk' =>
        refine key_count hk' hm ⟨fun e => ⟨i, rfl, .inr ⟨h, hk.1 e⟩⟩, ?_⟩ hs h44
        rintro ⟨i', e, h1 | h1⟩
        · injection e with e; subst e; exact absurd h1.1 (by rw [h]; decide)
        · injection e with e; subst e; exact hk.2 h1.2
  | gen h o f' r' he =>
    have hs : ¬ IsSign i := fun e => absurd e.1 (by rw [h]; decide)
    have h44 : i.c.ins ≠ 0x44 := by rw [h]; decide
    cases he with
    | none o hb =>
      refine plain rfl hm ?_
      rcases hb with h | ⟨rfl, _⟩
      · exact not_ok_of_bad h
      · exact cut_not_ok
    | read hp d =>
      refine other rfl hm hs ?_ h44
      rintro ⟨i', e, h1 | h1⟩
      · injection e with e; subst e; exact absurd h1.2.1 (by rw [hp]; decide)
      · injection e with e; subst e; exact absurd h1.1 (by rw [h]; decide)
    | key hp k hk o f' r' hr hk' =>
      refine key_count hk' hm ⟨fun e => ⟨i, rfl, .inl ⟨h, hp, hk.1 e⟩⟩, ?_⟩ hs h44
      rintro ⟨i', e, h1 | h1⟩
      · injection e with e; subst e; exact hk.2 h1.2.2
      · injection e with e; subst e; exact absurd h1.1 (by rw [h]; decide)
  | sign h o f' r' he =>
    cases he with
    | noPin => exact plain rfl hm (not_ok_of_bad (bad_sw (by decide)))
    | bad hp o hb =>
      refine plain rfl hm ?_
      rcases hb with h | ⟨rfl, _⟩
      · exact not_ok_of_bad h
      · exact cut_not_ok
    | given hp p mt hu d hd r' hus hm' h1 f' sw hf =>
      rcases hf with ⟨h, _⟩ | ⟨_, rfl, rfl⟩ | ⟨_, rfl, dt, n, hdt, hn, rfl⟩
      · cases h
      · refine plain rfl hm ?_
        rintro ⟨d', h⟩
        have h : Reply.resp d 0x6900 = .resp d' 0x9000 := by injection h
        injection h with _ h
        exact absurd h (by decide)
      · have e : m = ctrVal n := by
          simp only [counter, hdt, hn, Option.bind_some, Option.map_some, Option.some.injEq] at hm
          exact hm.symm
        exact ⟨ctrVal (incr n), rfl, .inl ⟨⟨i, rfl, h⟩, ⟨d, rfl⟩, by rw [incr_val, e]⟩⟩
  | auth h o f' r' he =>
    refine oth (by rw [show i.c.ins = 0x88 from h]; decide) ?_
    cases he with
    | noPin => rfl
    | bad => rfl
    | given hp p mt hu d hd r' hus hm' h1 f' sw hf =>
      rcases hf with ⟨_, rfl, _⟩ | ⟨h, _⟩ | ⟨h, _⟩
      · rfl
      · cases h
      · cases h
  | dec h o f' r' he =>
    have : f' = f := by cases he <;> rfl
    subst this
    have hs : ¬ IsSign i := fun e => absurd e.2.1 (by rw [h.2.1]; decide)
    exact other rfl hm hs (not_new (by rw [h.1]; decide) (by rw [h.1]; decide)) (by rw [h.1]; decide)
  | term h o f' r' he =>
    refine oth (by rw [h]; decide) ?_
    cases he with
    | bad => rfl
    | done hv d hd => simp [ctrOf, hd]
  | act h h0 o f' r' he => exact inst_count he (.inl ⟨⟨i, rfl, h⟩, fun e => h0 (active_iff.1 e)⟩) hm

theorem count_step (hx : x.Ok) {s : St} {op : Op} {env : Env} {m : Nat} (hb : BootsOk op env)
    (hm : counter s.flash = some m) :
    ∃ n, counter (step x s op env).1.flash = some n ∧ Counted s.flash op (step x s op env).2 m n := by
  have key : ∀ A, SEff A x s op (step x s op env).1 (step x s op env).2 → (op = .boot → ¬ A .fail) →
      ∃ n, counter (step x s op env).1.flash = some n ∧ Counted s.flash op (step x s op env).2 m n := by
    intro A h hA
    generalize (step x s op env).1 = s' at h ⊢
    generalize (step x s op env).2 = out at h ⊢
    have nno : ¬ Ok Out.none := by rintro ⟨d, h⟩; cases h
    have hd : s.flash.data ≠ none := by
      intro e; rw [counter, e] at hm; cases hm
    cases h with
    | off => exact plain rfl hm nno
    | deselect => exact plain rfl hm nno
    | boot o f' r1 h =>
      have nr : ¬ Reinstalls s.flash .boot := by
        rintro (⟨⟨i', e, _⟩, _⟩ | e | ⟨_, e⟩)
        · cases e
        · cases e
        · exact hd e
      have ns : ∀ out, ¬ ((∃ i, Op.boot = .apdu i ∧ IsSign i) ∧ Ok out) := by
        rintro out ⟨⟨i', e, _⟩, _⟩; cases e
      have nk : ∀ out, ¬ (NewSigKey .boot ∧ Ok out) := by
        rintro out ⟨⟨i', e, _⟩, _⟩; cases e
      cases h with
      | nop => exact ⟨m, hm, .inr (.inr (.inr ⟨ns _, nk _, nr, rfl⟩))⟩
      | inst h =>
        rcases h with h | h
        · exact absurd h hd
        · exact absurd h (hA rfl)
      | cut => exact plain rfl hm cut_not_ok
    | factory r hr o f' r1 h => exact inst_count h (.inr (.inl rfl)) hm
    | apdu i r hr0 o f' r1 h =>
      cases h with
      | cla sw h => exact plain rfl hm (not_ok_of_bad (bad_sw (by rcases h with ⟨rfl, _⟩ | ⟨rfl, _⟩ <;> decide)))
      | gate r' hr sw h => exact plain rfl hm (not_ok_of_bad (bad_sw (by rcases h with ⟨rfl, _⟩ | ⟨rfl, _⟩ <;> decide)))
      | cut => exact plain rfl hm cut_not_ok
      | cmd hc r0 hr' t ht' hg o f' r' h => exact count_cmd h hm
  by_cases e : op = .boot
  · exact key cutsOnly (step_eff hx (hb e)) fun _ h => h rfl
  · exact key anyFault (step_eff hx anyAll) fun h => absurd h e

/-- C39: through every history of commands, restarts, power cuts and (except while the device starts) storage errors the
counter is the number of signatures answered with 9000 (modulo 2^24) since the signature key was generated or imported,
or the applet installed. -/
theorem C39_counter_counts (hx : x.Ok) (s : St) (n0 : Nat) (h : List (Op × Env)) (hb : ∀ e ∈ h, BootsOk e.1 e.2)
    (hn : counter s.flash = some n0) :
    ∃ n, counter (run x s [] h).1.flash = some n ∧ Counts n0 (run x s [] h).2 n := by
  refine run_inv (x := x) (I := fun log s => ∃ n, counter s.flash = some n ∧ Counts n0 log n) (P := BootsOk)
    ?_ h s [] hb ⟨n0, hn, rfl⟩
  rintro s log op env hb ⟨m, hm, hc⟩
  obtain ⟨n, h1, h2⟩ := count_step hx hb hm
  exact ⟨n, h1, m, hc, h2⟩

/-! ### C40: termination and activation -/

/-- Refused because the card is terminated, or for its class, or an internal error; or the device is off or loses
power. -/
def Closed (o : Out) : Prop :=
  o = .none ∨ o = .cut ∨ ∃ sw ∈ [0x6285, 0x6E00, 0x6985, 0x6900], o = .reply (.resp [] sw)

theorem closed_step (hx : x.Ok) {s : St} {env : Env} (ht : Terminated s.flash) (h1 : i.c.ins ≠ 0xA4)
    (h2 : i.c.ins ≠ 0x44) :
    (step x s (.apdu i) env).1.flash = s.flash ∧ Closed (step x s (.apdu i) env).2 := by
  have ht := terminated_iff.1 ht
  have h := step_eff (A := anyFault) hx (s := s) (op := .apdu i) (env := env) anyAll
  generalize (step x s (.apdu i) env).1 = s' at h ⊢
  generalize (step x s (.apdu i) env).2 = out at h ⊢
  cases h with
  | off => exact ⟨rfl, .inl rfl⟩
  | apdu i r hr o f' r1 h =>
    cases h with
    | cla sw h => exact ⟨rfl, .inr (.inr ⟨sw, by rcases h with ⟨rfl, _⟩ | ⟨rfl, _⟩ <;> decide, rfl⟩)⟩
    | gate r' hr sw h => exact ⟨rfl, .inr (.inr ⟨sw, by rcases h with ⟨rfl, _⟩ | ⟨rfl, _⟩ <;> decide, rfl⟩)⟩
    | cut => exact ⟨rfl, .inr (.inl rfl)⟩
    | cmd hc r0 hr t ht' hg =>
      rw [ht] at ht'
      cases ht'
      rcases hg rfl with h | h
      · exact absurd h h2
      · exact absurd h h1

theorem terminated_step (hx : x.Ok) {s : St} {op : Op} {env : Env} (hb : BootsOk op env) (ht : Terminated s.flash)
    (hn : ¬ ((IsIns op 0x44 ∨ op = .factory) ∧ Ok (step x s op env).2)) : Terminated (step x s op env).1.flash := by
  have key : ∀ A, SEff A x s op (step x s op env).1 (step x s op env).2 → (op = .boot → ¬ A .fail) →
      Terminated (step x s op env).1.flash := by
    intro A h hA
    generalize (step x s op env).1 = s' at h ⊢
    generalize (step x s op env).2 = out at h hn
    have inst : ∀ {o f' r r'}, InstEff A s.flash r o f' r' → ¬ Ok (outOf o) → Terminated f' := by
      intro o f' r r' h ho
      have mid : ∀ {f'}, Mid s.flash f' → Terminated f' := by
        intro f' h
        rcases h.term with e | e
        · rw [terminated_iff, e]; exact terminated_iff.1 ht
        · exact terminated_iff.2 e
      cases h with
      | done => exact absurd ⟨[], rfl⟩ ho
      | fail h f' hm => exact mid hm
      | cut h f' hm => exact mid hm
    cases h with
    | off => exact ht
    | deselect => exact ht
    | boot o f' r1 h =>
      cases h with
      | nop => exact ht
      | inst h =>
        rcases h with h | h
        · obtain ⟨d, hd, _⟩ := ht; rw [hd] at h; cases h
        · exact absurd h (hA rfl)
      | cut => exact ht
    | factory r hr o f' r1 h => exact inst h fun e => hn ⟨.inr rfl, e⟩
    | apdu i r hr0 o f' r1 h =>
      cases h with
      | cla => exact ht
      | gate => exact ht
      | cut => exact ht
      | cmd hc r0 hr' t ht' hg o f' r' h =>
        rw [terminated_iff.1 ht] at ht'
        cases ht'
        have no : ∀ b : Byte, i.c.ins = b → b ≠ 0x44 → b ≠ 0xA4 → False := by
          intro b h1 h2 h3
          rcases hg rfl with h | h
          · exact h2 (h1 ▸ h)
          · exact h3 (h1 ▸ h)
        cases h with
        | read => exact ht
        | cut => exact ht
        | verify h => exact (no _ h (by decide) (by decide)).elim
        | change h => exact (no _ h (by decide) (by decide)).elim
        | rrc h => exact (no _ h (by decide) (by decide)).elim
        | put h => exact (no _ h (by decide) (by decide)).elim
        | imp h => exact (no _ h (by decide) (by decide)).elim
        | gen h => exact (no _ h (by decide) (by decide)).elim
        | sign h => exact (no _ h.1 (by decide) (by decide)).elim
        | auth h => exact (no _ h (by decide) (by decide)).elim
        | dec h => exact (no _ h.1 (by decide) (by decide)).elim
        | term h => exact (no _ h (by decide) (by decide)).elim
        | act h h0 o f' r' he => exact inst he fun e => hn ⟨.inl ⟨i, rfl, h⟩, e⟩
  by_cases e : op = .boot
  · exact key cutsOnly (step_eff hx (hb e)) fun _ h => h rfl
  · exact key anyFault (step_eff hx anyAll) fun h => absurd h e

/-- C40: a terminated applet stays terminated through every history of commands, restarts, power cuts and (except while
the device starts) storage errors in which no ACTIVATE and no reset of the device succeeds, and every command then other
than SELECT and ACTIVATE is refused and changes nothing. -/
theorem C40_terminated_is_closed (hx : x.Ok) (s : St) (h : List (Op × Env)) (hb : ∀ e ∈ h, BootsOk e.1 e.2)
    (ht : Terminated s.flash)
    (hn : ∀ e ∈ (run x s [] h).2, ¬ ((IsIns e.2.1 0x44 ∨ e.2.1 = .factory) ∧ Ok e.2.2))
    (i : In) (env : Env) (h1 : i.c.ins ≠ 0xA4) (h2 : i.c.ins ≠ 0x44) :
    Terminated (run x s [] h).1.flash ∧
    (step x (run x s [] h).1 (.apdu i) env).1.flash = (run x s [] h).1.flash ∧
    Closed (step x (run x s [] h).1 (.apdu i) env).2 := by
  have := run_log (x := x) (I := fun s => Terminated s.flash) (P := BootsOk)
    (L := fun _ op out => ¬ ((IsIns op 0x44 ∨ op = .factory) ∧ Ok out))
    (fun s op env hb ht hn => terminated_step hx hb ht hn) h s [] hb ht hn
  exact ⟨this, closed_step hx this h1 h2⟩

/-- C40: ACTIVATE answered with 9000 leaves the applet as it was when it was first installed; on an active applet it changes
nothing. -/
theorem C40_activate_installs (hx : x.Ok) (s : St) (i : In) (env : Env) (hi : i.c.ins = 0x44) :
    (Ok (step x s (.apdu i) env).2 → (step x s (.apdu i) env).1.flash = factory) ∧
    (Active s.flash → (step x s (.apdu i) env).1.flash = s.flash) := by
  have h := step_eff (A := anyFault) hx (s := s) (op := .apdu i) (env := env) anyAll
  generalize (step x s (.apdu i) env).1 = s' at h ⊢
  generalize (step x s (.apdu i) env).2 = out at h ⊢
  have bad : ∀ {o}, Bad o → ∀ f', (Ok (outOf o) → f' = factory) ∧ (Active s.flash → s.flash = s.flash) :=
    fun hb f' => ⟨fun e => absurd e (not_ok_of_bad hb), fun _ => rfl⟩
  cases h with
  | off => exact ⟨fun ⟨d, h⟩ => by (cases h), fun _ => rfl⟩
  | apdu i r hr o f' r1 h =>
    cases h with
    | cla sw h => exact bad (bad_sw (by rcases h with ⟨rfl, _⟩ | ⟨rfl, _⟩ <;> decide)) _
    | gate r' hr sw h => exact bad (bad_sw (by rcases h with ⟨rfl, _⟩ | ⟨rfl, _⟩ <;> decide)) _
    | cut => exact ⟨fun e => absurd e cut_not_ok, fun _ => rfl⟩
    | cmd hc r0 hr t ht' hg o f' r' h =>
      cases h with
      | read h hs hd hi' a r' hr hb =>
        rcases hb with hb | ⟨hb, _⟩
        · exact bad hb _
        · exact absurd hi hb
      | cut => exact ⟨fun e => absurd e cut_not_ok, fun _ => rfl⟩
      | verify h => exact absurd h (by rw [hi]; decide)
      | change h => exact absurd h (by rw [hi]; decide)
      | rrc h => exact absurd h (by rw [hi]; decide)
      | put h => exact absurd h (by rw [hi]; decide)
      | imp h => exact absurd h (by rw [hi]; decide)
      | gen h => exact absurd h (by rw [hi]; decide)
      | sign h => exact absurd h.1 (by rw [hi]; decide)
      | auth h => exact absurd (show i.c.ins = 0x88 from h) (by rw [hi]; decide)
      | dec h => exact absurd h.1 (by rw [hi]; decide)
      | term h => exact absurd h (by rw [hi]; decide)
      | act h h0 o f' r' he =>
        refine ⟨fun ho => ?_, fun ha => absurd (active_iff.1 ha) h0⟩
        cases he with
        | done => rfl
        | fail => exact absurd ho (not_ok_of_bad bad_io)
        | cut => exact absurd ho cut_not_ok

/-- What TERMINATE does, and that nothing else terminates. -/
theorem terminate_step (hx : x.Ok) {s : St} {op : Op} {env : Env} (ha : ¬ Terminated s.flash)
    (ht : Terminated (step x s op env).1.flash) :
    Reinstalls s.flash op ∨ op = .boot ∨
    (IsIns op 0xE6 ∧ Ok (step x s op env).2 ∧ ∃ r, s.ram = some r ∧ (r.pw3.validated = true ∨ Blocked s.flash.pw3)) := by
  have h := step_eff (A := anyFault) hx (s := s) (op := op) (env := env) anyAll
  generalize (step x s op env).1 = s' at h ht
  generalize (step x s op env).2 = out at h ⊢
  have ht' := terminated_iff.1 ht
  have ha' : termOf s.flash ≠ some 1 := fun e => ha (terminated_iff.2 e)
  have same : ∀ {f'}, termOf f' = termOf s.flash → termOf f' = some 1 → False := fun e h => ha' (e ▸ h)
  cases h with
  | off => exact absurd ht ha
  | deselect => exact absurd ht ha
  | boot => exact .inr (.inl rfl)
  | factory => exact .inl (.inr (.inl rfl))
  | apdu i r hr o f' r1 h =>
    cases h with
    | cla => exact absurd ht ha
    | gate => exact absurd ht ha
    | cut => exact absurd ht ha
    | cmd hc r0 hr0 t ht0 hg o f' r' h =>
      cases h with
      | read => exact absurd ht ha
      | cut => exact absurd ht ha
      | verify h o f' r' he => exact (same (verify_pins he).term ht').elim
      | change h o f' r' he => exact (same (change_pins he).term ht').elim
      | rrc h o f' r' he => exact (same (rrc_pins he).term ht').elim
      | put h o f' r' he =>
        cases he with
        | no => exact absurd ht ha
        | yes h o f' r' h' => exact (same (put_keep h').term ht').elim
      | imp h o f' r' he =>
        have : termOf f' = termOf s.flash := by
          cases he with
          | no => rfl
          | yes h o f' r' h' =>
            cases h' with
            | none => rfl
            | key k hk o f' r' hr h =>
              cases h with
              | none => rfl
              | fail o h hA f' hk => exact hk.term
              | done m hm mat org hd d =>
                rw [← (newKey_keep hm mat org).term]
                unfold ctrReset termOf
                split
                · cases hd' : (newKey s.flash k mat { m with origin := org }).data <;> simp [hd']
                · rfl
        exact (same this ht').elim
      | gen h o f' r' he =>
        have : termOf f' = termOf s.flash := by
          cases he with
          | none => rfl
          | read => rfl
          | key hp k hk o f' r' hr h =>
            cases h with
            | none => rfl
            | fail o h hA f' hk => exact hk.term
            | done m hm mat org hd d =>
              rw [← (newKey_keep hm mat org).term]
              unfold ctrReset termOf
              split
              · cases hd' : (newKey s.flash k mat { m with origin := org }).data <;> simp [hd']
              · rfl
        exact (same this ht').elim
      | sign h o f' r' he =>
        have : termOf f' = termOf s.flash := by
          cases he with
          | noPin => rfl
          | bad => rfl
          | given hp p m h d hd r' hu hm h1 f' sw hf =>
            rcases hf with ⟨_, rfl, _⟩ | ⟨_, rfl, _⟩ | ⟨_, _, dt, n, hd, _, rfl⟩
            · rfl
            · rfl
            · simp [termOf, hd]
        exact (same this ht').elim
      | auth h o f' r' he =>
        have : termOf f' = termOf s.flash := by
          cases he with
          | noPin => rfl
          | bad => rfl
          | given hp p m h d hd r' hu hm h1 f' sw hf =>
            rcases hf with ⟨_, rfl, _⟩ | ⟨_, rfl, _⟩ | ⟨_, _, dt, n, hd, _, rfl⟩
            · rfl
            · rfl
            · simp [termOf, hd]
        exact (same this ht').elim
      | dec h o f' r' he => cases he <;> exact absurd ht ha
      | term h o f' r' he =>
        cases he with
        | bad => exact absurd ht ha
        | done hv d hd =>
          rw [hr0.same.pw3] at hv
          exact .inr (.inr ⟨⟨i, rfl, h⟩, ⟨[], rfl⟩, r, hr, hv⟩)
      | act h h0 => exact .inl (.inl ⟨⟨i, rfl, h⟩, fun e => h0 (active_iff.1 e)⟩)

/-- C40: an active applet becomes terminated only by TERMINATE with PW3 presented in this session (and not revoked since),
or with PW3 blocked; or by an interrupted reset of the device or start. -/
theorem C40_terminate_needs_pw3 (hx : x.Ok) (f : Flash) (h : List (Op × Env)) (op : Op) (env : Env)
    (ha : Active (run x ⟨f, none⟩ [] h).1.flash)
    (ht : Terminated (step x (run x ⟨f, none⟩ [] h).1 op env).1.flash) :
    (op = .factory ∨ op = .boot) ∨
    (IsIns op 0xE6 ∧ Ok (step x (run x ⟨f, none⟩ [] h).1 op env).2 ∧
      (Pw3Shown (run x ⟨f, none⟩ [] h).2 ∨ Blocked (run x ⟨f, none⟩ [] h).1.flash.pw3)) := by
  have hnt : ¬ Terminated (run x ⟨f, none⟩ [] h).1.flash := by
    intro e
    have e1 := terminated_iff.1 e
    rw [active_iff.1 ha] at e1
    cases e1
  rcases terminate_step hx hnt ht with h1 | h1 | ⟨h1, h2, r, hr, h3⟩
  · rcases h1 with h1 | h1 | ⟨h1, _⟩
    · exact absurd ha h1.2
    · exact .inl (.inl h1)
    · exact .inl (.inr h1)
  · exact .inl (.inr h1)
  · exact .inr ⟨h1, h2, h3.imp (fun hv => pw3_shown hx f h hr hv) id⟩

/-- C40: TERMINATE answered with 9000 terminates; answered otherwise (or interrupted) it changes nothing. -/
theorem C40_terminate_effect (hx : x.Ok) (s : St) (i : In) (env : Env) (hi : i.c.ins = 0xE6) :
    (Ok (step x s (.apdu i) env).2 → Terminated (step x s (.apdu i) env).1.flash) ∧
    (¬ Ok (step x s (.apdu i) env).2 → (step x s (.apdu i) env).1.flash = s.flash) := by
  have h := step_eff (A := anyFault) hx (s := s) (op := .apdu i) (env := env) anyAll
  generalize (step x s (.apdu i) env).1 = s' at h ⊢
  generalize (step x s (.apdu i) env).2 = out at h ⊢
  have bad : ∀ {o}, Bad o → (Ok (outOf o) → Terminated s.flash) ∧ (¬ Ok (outOf o) → s.flash = s.flash) :=
    fun hb => ⟨fun e => absurd e (not_ok_of_bad hb), fun _ => rfl⟩
  cases h with
  | off => exact ⟨fun ⟨d, h⟩ => by (cases h), fun _ => rfl⟩
  | apdu i r hr o f' r1 h =>
    cases h with
    | cla sw h => exact bad (bad_sw (by rcases h with ⟨rfl, _⟩ | ⟨rfl, _⟩ <;> decide))
    | gate r' hr sw h => exact bad (bad_sw (by rcases h with ⟨rfl, _⟩ | ⟨rfl, _⟩ <;> decide))
    | cut => exact ⟨fun e => absurd e cut_not_ok, fun _ => rfl⟩
    | cmd hc r0 hr t ht' hg o f' r' h =>
      cases h with
      | read h => exact absurd (by rw [hi]; decide) h
      | cut => exact ⟨fun e => absurd e cut_not_ok, fun _ => rfl⟩
      | verify h => exact absurd h (by rw [hi]; decide)
      | change h => exact absurd h (by rw [hi]; decide)
      | rrc h => exact absurd h (by rw [hi]; decide)
      | put h => exact absurd h (by rw [hi]; decide)
      | imp h => exact absurd h (by rw [hi]; decide)
      | gen h => exact absurd h (by rw [hi]; decide)
      | sign h => exact absurd h.1 (by rw [hi]; decide)
      | auth h => exact absurd (show i.c.ins = 0x88 from h) (by rw [hi]; decide)
      | dec h => exact absurd h.1 (by rw [hi]; decide)
      | act h => exact absurd h (by rw [hi]; decide)
      | term h o f' r' he =>
        cases he with
        | bad o hb =>
          rcases hb with hb | ⟨rfl, _⟩
          · exact bad hb
          · exact ⟨fun e => absurd e cut_not_ok, fun _ => rfl⟩
        | done hv d hd => exact ⟨fun _ => ⟨_, rfl, rfl⟩, fun e => absurd ⟨[], rfl⟩ e⟩

end Verif.Pgp
