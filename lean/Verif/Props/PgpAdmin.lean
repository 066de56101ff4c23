import Verif.Props.Pgp
/-
Properties of the OpenPGP applet: commands that need PW3 (C37), and what a key may be used for (C69).
-/
set_option linter.unusedSimpArgs false
namespace Verif.Pgp
open Cmd Verif.Spec.Pgp Verif.KeyFile

variable {A : Fault → Prop} {x : Ext} {i : In} {f f' : Flash} {r r' : Ram} {o : Outcome Reply}

theorem out_sw {sw sw' : Nat} (h : outOf (.done (.sw sw)) = .reply (.resp [] sw')) : sw = sw' := by
  have h : Reply.resp [] sw = .resp [] sw' := by injection h
  injection h

theorem ok_out_sw {sw : Nat} (h : Ok (outOf (.done (.sw sw)))) : sw = 0x9000 := by
  obtain ⟨d, h⟩ := h
  have h : Reply.resp [] sw = .resp d 0x9000 := by injection h
  injection h

theorem startsWith_of {w : Which} {p : Pin.Flash} {q : Pin.PinFile} {c : UInt8} {l : UInt8} (hp : p = some q)
    (hc : q.ctr = some c) (hz : c ≠ 0) (hm : Pin.candidate i.c.data l = q.data.take 64) : StartsWith p i.c.data :=
  ⟨q, c, hp, hc, hz, hm ▸ List.take_prefix ..⟩

/-- What remains of the first part of CHANGE REFERENCE DATA if PW3 is validated. -/
theorem first_pw3_valid {size : Option Nat} {e : Option Reply} (h : FirstEff A x i .pw3 size f r e f' r')
    (hv : r'.pw3.validated = true) : StartsWith f.pw3 i.c.data ∧ (e = none ∨ e = some ioErr) := by
  cases h with
  | mk rc ctr p q h =>
    have hv : q.validated = true := hv
    cases h with
    | length => cases hv
    | io => cases hv
    | blocked => cases hv
    | wrong => cases hv
    | right q c d hp hc hz hl hm hd =>
      exact ⟨startsWith_of (w := .pw3) hp hc hz hm, .inl (by simp [stop, hz])⟩
    | rightIo q c hp hc hz hl hm =>
      exact ⟨startsWith_of (w := .pw3) hp hc hz hm, .inr (by simp [stop])⟩

theorem ch_pw3_valid (h : ChEff A x i .pw3 .pw3 f r o f' r') (ho : o ≠ .cut) (hv : r'.pw3.validated = true) :
    StartsWith f.pw3 i.c.data ∧ ¬ (Ok (outOf o) ∨ ∃ sw ∈ [0x6982, 0x6983], outOf o = .reply (.resp [] sw)) := by
  have nio : ¬ (Ok (outOf (.done ioErr)) ∨ ∃ sw ∈ [0x6982, 0x6983], outOf (.done ioErr) = .reply (.resp [] sw)) := by
    rintro (h | ⟨sw, h1, h2⟩)
    · exact absurd (ok_out_sw h) (by decide)
    · have := out_sw h2; subst this; exact absurd h1 (by decide)
  cases h with
  | cut => exact absurd rfl ho
  | stop size hs e f' r' h =>
    obtain ⟨h1, h2⟩ := first_pw3_valid h hv
    rcases h2 with h2 | h2
    · cases h2
    · injection h2 with h2; subst h2; exact ⟨h1, nio⟩
  | upd size hs f1 r1 h o f' r' h' =>
    cases h' with
    | ub hn =>
      refine ⟨(first_pw3_valid h hv).1, ?_⟩
      rintro (⟨d, h⟩ | ⟨sw, h1, h2⟩)
      · cases h
      · cases h2
    | short n hn hl =>
      refine ⟨(first_pw3_valid h hv).1, ?_⟩
      rintro (h | ⟨sw, h1, h2⟩)
      · exact absurd (ok_out_sw h) (by decide)
      · have := out_sw h2; subst this; exact absurd h1 (by decide)
    | upd hn rc p q hu =>
      have hv : q.validated = true := hv
      cases hu with
      | length hl =>
        refine ⟨(first_pw3_valid h hv).1, ?_⟩
        rintro (h | ⟨sw, h1, h2⟩)
        · exact absurd (ok_out_sw h) (by decide)
        · have := out_sw h2; subst this; exact absurd h1 (by decide)
      | io => cases hv
      | half => cases hv
      | done => cases hv
    | cut => exact absurd rfl ho

theorem pw3_cmd {r0 : Ram} (h : CEff A x i f r0 o f' r') (ho : o ≠ .cut) (hm : r'.pw3.validated = true) :
    (PresentsPw3 f (.apdu i) ∨ r0.pw3.validated = true) ∧ ¬ (i.c.ins = 0x44 ∧ Ok (outOf o)) ∧
      ¬ Pw3Revoked (.apdu i) (outOf o) := by
  have oth : i.c.ins ∉ [0x20, 0x24, 0x44] → r'.pw3 = r0.pw3 →
      (PresentsPw3 f (.apdu i) ∨ r0.pw3.validated = true) ∧ ¬ (i.c.ins = 0x44 ∧ Ok (outOf o)) ∧
        ¬ Pw3Revoked (.apdu i) (outOf o) := by
    intro h1 h2
    simp only [List.mem_cons, List.not_mem_nil, or_false, not_or] at h1
    refine ⟨.inr (h2 ▸ hm), fun e => h1.2.2 e.1, ?_⟩
    rintro ⟨i', e, h3, h4⟩
    injection e with e; subst e
    rcases h4 with h4 | h4 | h4
    · exact h1.1 h4.1
    · exact h1.1 h4.1
    · exact h1.2.1 h4.1
  have np2 : i.c.p2 ≠ 0x83 → ¬ Pw3Revoked (.apdu i) (outOf o) := by
    rintro h1 ⟨i', e, h3, _⟩
    injection e with e; subst e
    exact h1 h3
  cases h with
  | read h hs hd hi a r' hr hb =>
    have h0 := h
    simp only [List.mem_cons, List.not_mem_nil, or_false, not_or] at h
    refine ⟨.inr (hr.pw3 ▸ hm), ?_, ?_⟩
    · rintro ⟨e1, e2⟩
      rcases hb with hb | ⟨hb, _⟩
      · exact not_ok_of_bad hb e2
      · exact hb e1
    · rintro ⟨i', e, h3, h4⟩
      injection e with e; subst e
      rcases h4 with h4 | h4 | h4
      · exact h.1 h4.1
      · exact h.1 h4.1
      · exact h.2.1 h4.1
  | cut => exact absurd rfl ho
  | verify h o f' r' he =>
    have n44 : ¬ (i.c.ins = 0x44 ∧ Ok (outOf o)) := fun e => absurd e.1 (by rw [h]; decide)
    cases he with
    | param =>
      refine ⟨.inr hm, n44, ?_⟩
      rintro ⟨i', e, h3, h4⟩
      injection e with e; subst e
      rcases h4 with h4 | ⟨_, sw, h5, h6⟩ | h4
      · exact absurd (ok_out_sw h4.2.2) (by decide)
      · have := out_sw h6; subst this; exact absurd h5 (by decide)
      · exact absurd h4.1 (by rw [h]; decide)
    | cut => exact absurd rfl ho
    | logout hp2 hp1 =>
      by_cases e : i.c.p2 = 0x83
      · rw [e] at hm; cases hm
      · have hw : pinOf i.c.p2 ≠ .pw3 := by
          simp only [List.mem_cons, List.not_mem_nil, or_false] at hp2
          rcases hp2 with h | h | h
          · rw [h]; decide
          · rw [h]; decide
          · exact absurd h e
        rw [setR_pw3 hw] at hm
        have : (modeOff i.c.p2 r0).pw3 = r0.pw3 := by unfold modeOff; repeat' split <;> rfl
        rw [this] at hm
        exact ⟨.inr hm, n44, np2 e⟩
    | query hp2 hp1 hl sw hsw =>
      have : (modeOff i.c.p2 r0).pw3 = r0.pw3 := by unfold modeOff; repeat' split <;> rfl
      rw [this] at hm
      refine ⟨.inr hm, n44, ?_⟩
      rintro ⟨i', e, h3, h4⟩
      injection e with e; subst e
      rcases h4 with h4 | ⟨_, sw', h5, h6⟩ | h4
      · exact absurd h4.2.1 (by rw [hp1]; decide)
      · have := out_sw h6; subst this
        simp only [List.mem_cons, List.not_mem_nil, or_false] at h5
        rcases hsw with rfl | rfl | ⟨n, hn, rfl⟩
        · revert h5; decide
        · revert h5; decide
        · rcases h5 with h5 | h5 | h5 <;> (have h5 : @Eq Nat _ _ := h5; omega)
      · exact absurd h4.1 (by rw [h]; decide)
    | chk hp2 hp1 hl rc ctr p q hv r' hr =>
      subst hr
      by_cases e : i.c.p2 = 0x83
      · have hw : pinOf i.c.p2 = .pw3 := by rw [e]; decide
        rw [hw] at hm hv
        have hm : q.validated = true := hm
        refine ⟨.inl ⟨i, rfl, hp1, e, .inl ⟨h, hl, ver_shows hv hm⟩⟩, n44, ?_⟩
        rintro ⟨i', e', h3, h4⟩
        injection e' with e'; subst e'
        rcases h4 with h4 | ⟨_, sw, h5, h6⟩ | h4
        · exact absurd h4.2.1 (by rw [hp1]; decide)
        · cases hv with
          | length => cases hm
          | io => cases hm
          | blocked => cases hm
          | wrong => cases hm
          | right => have := out_sw h6; subst this; exact absurd h5 (by decide)
          | rightIo => have := out_sw h6; subst this; exact absurd h5 (by decide)
        · exact absurd h4.1 (by rw [h]; decide)
      · have hw : pinOf i.c.p2 ≠ .pw3 := by
          simp only [List.mem_cons, List.not_mem_nil, or_false] at hp2
          rcases hp2 with h | h | h
          · rw [h]; decide
          · rw [h]; decide
          · exact absurd h e
        rw [setR_pw3 hw] at hm
        have : (if rc = .ok then modeOn i.c.p2 r0 else modeOff i.c.p2 r0).pw3 = r0.pw3 := by
          unfold modeOff modeOn; repeat' split <;> rfl
        rw [this] at hm
        exact ⟨.inr hm, n44, np2 e⟩
  | change h o f' r' he =>
    have n44 : ¬ (i.c.ins = 0x44 ∧ Ok (outOf o)) := fun e => absurd e.1 (by rw [h]; decide)
    cases he with
    | param =>
      refine ⟨.inr hm, n44, ?_⟩
      rintro ⟨i', e, h3, h4⟩
      injection e with e; subst e
      rcases h4 with h4 | h4 | ⟨_, h4 | ⟨sw, h5, h6⟩⟩
      · exact absurd h4.1 (by rw [h]; decide)
      · exact absurd h4.1 (by rw [h]; decide)
      · exact absurd (ok_out_sw h4) (by decide)
      · have := out_sw h6; subst this; exact absurd h5 (by decide)
    | pw1 hp1 hp2 o f' r' h =>
      rw [ch_pw3 h ho (by decide) (by decide)] at hm
      exact ⟨.inr hm, n44, np2 (by rw [hp2]; decide)⟩
    | pw3 hp1 hp2 o f' r' h' =>
      obtain ⟨h1, h2⟩ := ch_pw3_valid h' ho hm
      refine ⟨.inl ⟨i, rfl, hp1, hp2, .inr ⟨h, h1⟩⟩, n44, ?_⟩
      rintro ⟨i', e, h3, h4⟩
      injection e with e; subst e
      rcases h4 with h4 | h4 | h4
      · exact absurd h4.1 (by rw [h]; decide)
      · exact absurd h4.1 (by rw [h]; decide)
      · exact h2 h4.2
  | rrc h o f' r' he => exact oth (by rw [h]; decide) (rrc_modes he ho).2
  | put h o f' r' he => exact oth (by rw [h]; decide) (adm_same he ho fun _ _ _ h ho => put_same h ho).pw3
  | imp h o f' r' he => exact oth (by rw [h]; decide) (adm_same he ho fun _ _ _ h ho => imp_same h ho).pw3
  | gen h o f' r' he => exact oth (by rw [h]; decide) (gen_same he ho).pw3
  | sign h o f' r' he => exact oth (by rw [h.1]; decide) (sign_ram he ho).pw3
  | auth h o f' r' he => exact oth (by rw [show i.c.ins = 0x88 from h]; decide) (sign_ram he ho).pw3
  | dec h o f' r' he => exact oth (by rw [h.1]; decide) (dec_ram he ho).2.2
  | term h o f' r' he => exact oth (by rw [h]; decide) (term_same he ho).pw3
  | act h ht o f' r' he =>
    rw [(inst_ram he ho).2.2.1] at hm; cases hm

theorem pw3_peff (h : PEff A x i f r o f' r') (ho : o ≠ .cut) (hm : r'.pw3.validated = true) :
    (PresentsPw3 f (.apdu i) ∨ r.pw3.validated = true) ∧ ¬ (i.c.ins = 0x44 ∧ Ok (outOf o)) ∧
      ¬ Pw3Revoked (.apdu i) (outOf o) := by
  have key : ∀ sw : Nat, sw ∈ [0x6E00, 0x6985, 0x6900, 0x6285] → o = .done (.sw sw) → ¬ Pw3Revoked (.apdu i) (outOf o) := by
    rintro sw hs rfl ⟨i', e, h3, h4⟩
    rcases h4 with h4 | ⟨_, sw', h5, h6⟩ | ⟨_, h4 | ⟨sw', h5, h6⟩⟩
    · have := ok_out_sw h4.2.2; subst this; exact absurd hs (by decide)
    · have := out_sw h6; subst this
      simp only [List.mem_cons, List.not_mem_nil, or_false] at hs
      rcases hs with rfl | rfl | rfl | rfl <;> exact absurd h5 (by decide)
    · have := ok_out_sw h4; subst this; exact absurd hs (by decide)
    · have := out_sw h6; subst this
      simp only [List.mem_cons, List.not_mem_nil, or_false] at hs
      rcases hs with rfl | rfl | rfl | rfl <;> exact absurd h5 (by decide)
  cases h with
  | cla sw h =>
    have hb : Bad (.done (.sw sw)) := bad_sw (by rcases h with ⟨rfl, _⟩ | ⟨rfl, _⟩ <;> decide)
    exact ⟨.inr hm, fun e => not_ok_of_bad hb e.2,
      key sw (by rcases h with ⟨rfl, _⟩ | ⟨rfl, _⟩ <;> decide) rfl⟩
  | gate r' hr sw h =>
    have hb : Bad (.done (.sw sw)) := bad_sw (by rcases h with ⟨rfl, _⟩ | ⟨rfl, _⟩ <;> decide)
    exact ⟨.inr (by rw [hr.same.pw3] at hm; exact hm), fun e => not_ok_of_bad hb e.2,
      key sw (by rcases h with ⟨rfl, _⟩ | ⟨rfl, _⟩ <;> decide) rfl⟩
  | cut => exact absurd rfl ho
  | cmd hc r0 hr t ht hg o f' r' h =>
    have := pw3_cmd h ho hm
    rwa [hr.same.pw3] at this

theorem invPw3_step (hx : x.Ok) {s : St} {log : List Entry} {op : Op} {env : Env}
    (hi : ∀ r, s.ram = some r → r.pw3.validated = true → Pw3Shown log) :
    ∀ r, (step x s op env).1.ram = some r → r.pw3.validated = true →
      Pw3Shown ((s, op, (step x s op env).2) :: log) := by
  have h := step_eff (A := anyFault) hx (s := s) (op := op) (env := env) anyAll
  generalize (step x s op env).1 = s' at h ⊢
  generalize (step x s op env).2 = out at h ⊢
  intro r' hr' hm
  cases h with
  | off op h ho => rw [h] at hr'; cases hr'
  | deselect r h => cases hr'; cases hm
  | boot o f' r1 h =>
    obtain ⟨ho, rfl⟩ := ramOf_some hr'
    rw [(boot_ram h ho).2.2.1] at hm; cases hm
  | factory r hr o f' r1 h =>
    obtain ⟨ho, rfl⟩ := ramOf_some hr'
    rw [(inst_ram h ho).2.2.1] at hm; cases hm
  | apdu i r hr o f' r1 h =>
    obtain ⟨ho, rfl⟩ := ramOf_some hr'
    obtain ⟨h1, h2, h3⟩ := pw3_peff h ho hm
    exact ⟨h1.imp id (hi r hr), session_apdu ho h2, h3⟩

theorem pw3_shown (hx : x.Ok) (f : Flash) (h : List (Op × Env)) {r : Ram}
    (hr : (run x ⟨f, none⟩ [] h).1.ram = some r) (hv : r.pw3.validated = true) :
    Pw3Shown (run x ⟨f, none⟩ [] h).2 :=
  run_inv (x := x) (I := fun log s => ∀ r, s.ram = some r → r.pw3.validated = true → Pw3Shown log)
    (P := fun _ _ => True) (fun s log op env _ hi => invPw3_step hx hi) h ⟨f, none⟩ [] (fun _ _ => trivial)
    (fun r h => by cases h) r hr hv

theorem refused_sw {sw : Nat} (h : sw ∈ [0x6E00, 0x6982, 0x6285, 0x6900]) : Refused (outOf (.done (.sw sw))) :=
  .inr (.inr ⟨sw, h, rfl⟩)

/-- PUT DATA and key import without PW3. -/
theorem adm_refused {s : St} {env : Env} (hx : x.Ok) (hi : i.c.ins = 0xDA ∨ i.c.ins = 0xDB)
    (hv : ∀ r, s.ram = some r → r.pw3.validated = false) :
    (step x s (.apdu i) env).1.flash = s.flash ∧ Refused (step x s (.apdu i) env).2 := by
  have no : ∀ b : Byte, i.c.ins = b → b ≠ 0xDA → b ≠ 0xDB → False := by
    intro b h1 h2 h3
    rcases hi with h | h
    · exact h2 (h1 ▸ h)
    · exact h3 (h1 ▸ h)
  have h := step_eff (A := anyFault) hx (s := s) (op := .apdu i) (env := env) anyAll
  generalize (step x s (.apdu i) env).1 = s' at h ⊢
  generalize (step x s (.apdu i) env).2 = out at h ⊢
  cases h with
  | off h ho => exact ⟨rfl, .inl rfl⟩
  | apdu i r hr o f' r1 h =>
    cases h with
    | cla sw h =>
      refine ⟨rfl, ?_⟩
      rcases h with ⟨rfl, _⟩ | ⟨rfl, h⟩
      · exact refused_sw (by decide)
      · exact (no _ h (by decide) (by decide)).elim
    | gate r' hr' sw h => exact ⟨rfl, refused_sw (by rcases h with ⟨rfl, _⟩ | ⟨rfl, _⟩ <;> decide)⟩
    | cut => exact ⟨rfl, .inr (.inl rfl)⟩
    | cmd hc r0 hr' t ht hgt o f' r' h =>
      have hv : r0.pw3.validated = false := by rw [hr'.same.pw3]; exact hv r hr
      cases h with
      | read h =>
        simp only [List.mem_cons, List.not_mem_nil, or_false, not_or] at h
        rcases hi with hi | hi
        · exact absurd hi h.2.2.2.1
        · exact absurd hi h.2.2.2.2.1
      | cut => exact ⟨rfl, .inr (.inl rfl)⟩
      | verify h => exact (no _ h (by decide) (by decide)).elim
      | change h => exact (no _ h (by decide) (by decide)).elim
      | rrc h => exact (no _ h (by decide) (by decide)).elim
      | put h o f' r' he =>
        cases he with
        | no => exact ⟨rfl, refused_sw (by decide)⟩
        | yes h => rw [h] at hv; cases hv
      | imp h o f' r' he =>
        cases he with
        | no => exact ⟨rfl, refused_sw (by decide)⟩
        | yes h => rw [h] at hv; cases hv
      | gen h => exact (no _ h (by decide) (by decide)).elim
      | sign h => exact (no _ h.1 (by decide) (by decide)).elim
      | auth h => exact (no _ h (by decide) (by decide)).elim
      | dec h => exact (no _ h.1 (by decide) (by decide)).elim
      | term h => exact (no _ h (by decide) (by decide)).elim
      | act h => exact (no _ h (by decide) (by decide)).elim

/-- C37, the part that holds: for every flash contents, every history of commands, restarts, storage errors and power
cuts: unless PW3 was presented in this session and not revoked since, PUT DATA and key import change nothing and are
refused. Missing: generation of keys, see `C37_generate_refuted`. -/
theorem C37_put_and_import_partial (hx : x.Ok) (f : Flash) (h : List (Op × Env)) (i : In) (env : Env)
    (hi : i.c.ins = 0xDA ∨ i.c.ins = 0xDB) (hn : ¬ Pw3Shown (run x ⟨f, none⟩ [] h).2) :
    (step x (run x ⟨f, none⟩ [] h).1 (.apdu i) env).1.flash = (run x ⟨f, none⟩ [] h).1.flash ∧
    Refused (step x (run x ⟨f, none⟩ [] h).1 (.apdu i) env).2 := by
  refine adm_refused hx hi fun r hr => ?_
  cases hv : r.pw3.validated with
  | false => rfl
  | true => exact absurd (pw3_shown hx f h hr hv) hn

/-- What a key may be used for: whatever DECIPHER, INTERNAL AUTHENTICATE and COMPUTE DIGITAL SIGNATURE give out was
computed with the key of that command, which exists, allows that use, and - if it asks for touch - with the user
present. -/
theorem given_usable (hx : x.Ok) {s : St} {env : Env} {d : Bytes} {sw : Nat}
    (h : (step x s (.apdu i) env).2 = .reply (.resp d sw)) (hg : sw = 0x9000 ∨ d ≠ [])
    (hk : IsSign i ∨ IsDecipher i ∨ IsAuth i) :
    ∃ r p m, s.ram = some r ∧ Usable i s.flash r (usedKey i) (if usedKey i = .dec then 2 else 1) p m ∧
      ((IsSign i ∨ IsAuth i) ∧ x.cr.sign m.type p.mat (digest x m.type i.c) = some d ∨
       IsDecipher i ∧ ((m.type.isRsa = true ∧ x.rsaDec p.mat ((i.c.data.drop 1).take (x.cr.pub m.type)) = .ok d) ∨
        (m.type.isRsa = false ∧ ∃ pt, pt <:+ i.c.data ∧ pt.length = x.cr.pub m.type ∧
          x.cr.ecdh m.type p.mat pt = some d))) := by
  have hgv : Given (.reply (.resp d sw)) := ⟨d, sw, rfl, hg⟩
  have hins : i.c.ins = 0x2A ∨ i.c.ins = 0x88 := by
    rcases hk with h | h | h
    · exact .inl h.1
    · exact .inl h.1
    · exact .inr h
  have no : ∀ b : Byte, i.c.ins = b → b ≠ 0x2A → b ≠ 0x88 → False := by
    intro b h1 h2 h3
    rcases hins with h | h
    · exact h2 (h1 ▸ h)
    · exact h3 (h1 ▸ h)
  have he := step_eff (A := anyFault) hx (s := s) (op := .apdu i) (env := env) anyAll
  generalize (step x s (.apdu i) env).1 = s' at he
  generalize (step x s (.apdu i) env).2 = out at h he
  subst h
  generalize ho : Out.reply (.resp d sw) = out at he
  cases he with
  | off => cases ho
  | apdu i r hr o f' r1 h =>
    rw [ho] at hgv
    cases h with
    | cla sw h => exact (not_given_of_bad (bad_sw (by rcases h with ⟨rfl, _⟩ | ⟨rfl, _⟩ <;> decide)) hgv).elim
    | gate r' hr sw h => exact (not_given_of_bad (bad_sw (by rcases h with ⟨rfl, _⟩ | ⟨rfl, _⟩ <;> decide)) hgv).elim
    | cut => cases ho
    | cmd hc r0 hr0 t ht hgt o f' r' h =>
      have us : ∀ {k u p m}, Usable i s.flash r0 k u p m → Usable i s.flash r k u p m := by
        rintro k u p m ⟨a, b, c, e, g⟩
        refine ⟨a, b, c, e, fun h => ?_⟩
        rcases g h with h | h | h
        · exact .inl h
        · exact .inr (.inl h)
        · refine .inr (.inr ?_)
          have e1 : r0.lastTouch = r.lastTouch := hr0.same.touch
          have e2 : r0.cache = r.cache := by obtain ⟨_, _, rfl⟩ := hr0; rfl
          rwa [e1, e2] at h
      cases h with
      | read h hs' hd' =>
        rcases hk with hk | hk | hk
        · exact absurd hk hs'
        · exact absurd hk hd'
        · exact absurd (show i.c.ins = 0x88 from hk) (fun e => h (by rw [e]; decide))
      | cut => cases ho
      | verify h => exact (no _ h (by decide) (by decide)).elim
      | change h => exact (no _ h (by decide) (by decide)).elim
      | rrc h => exact (no _ h (by decide) (by decide)).elim
      | put h => exact (no _ h (by decide) (by decide)).elim
      | imp h => exact (no _ h (by decide) (by decide)).elim
      | gen h => exact (no _ h (by decide) (by decide)).elim
      | term h => exact (no _ h (by decide) (by decide)).elim
      | act h => exact (no _ h (by decide) (by decide)).elim
      | sign h o f' r' he =>
        have e1 : usedKey i = .sig := by
          unfold usedKey
          rw [if_neg (by rw [h.1]; decide), if_pos h.2.1]
        cases he with
        | noPin => exact (not_given_of_bad (bad_sw (by decide)) hgv).elim
        | bad hp o hb => exact (bad_or_cut_not_given hb hgv).elim
        | given hp p m hu d' hd =>
          have : d = d' := by injection ho with ho; injection ho
          subst this
          exact ⟨r, p, m, hr, by rw [e1]; exact us hu, .inl ⟨.inl h, hd⟩⟩
      | auth h o f' r' he =>
        have e1 : usedKey i = .aut := by
          unfold usedKey
          rw [if_pos (show i.c.ins = 0x88 from h)]
        cases he with
        | noPin => exact (not_given_of_bad (bad_sw (by decide)) hgv).elim
        | bad hp o hb => exact (bad_or_cut_not_given hb hgv).elim
        | given hp p m hu d' hd =>
          have : d = d' := by injection ho with ho; injection ho
          subst this
          exact ⟨r, p, m, hr, by rw [e1]; exact us hu, .inl ⟨.inr h, hd⟩⟩
      | dec h o f' r' he =>
        have e1 : usedKey i = .dec := by
          unfold usedKey
          rw [if_neg (by rw [h.1]; decide), if_neg (by rw [h.2.1]; decide)]
        cases he with
        | noPin => exact (not_given_of_bad (bad_sw (by decide)) hgv).elim
        | bad hp o hb => exact (bad_or_cut_not_given hb hgv).elim
        | given hp p m hu d' r' hu' hd =>
          have : d = d' := by injection ho with ho; injection ho
          subst this
          exact ⟨r, p, m, hr, by rw [e1]; exact us hu, .inr ⟨h, hd⟩⟩

/-- C69: whatever COMPUTE DIGITAL SIGNATURE, INTERNAL AUTHENTICATE and DECIPHER give out (in any state, under any faults)
was computed with the signature, authentication and decryption key respectively, which exists and allows that use, from
the data of the command. -/
theorem C69_right_key (hx : x.Ok) (s : St) (i : In) (env : Env) (d : Bytes) (sw : Nat)
    (h : (step x s (.apdu i) env).2 = .reply (.resp d sw)) (hg : sw = 0x9000 ∨ d ≠ [])
    (hk : IsSign i ∨ IsDecipher i ∨ IsAuth i) :
    ∃ p m, s.flash.keys (if IsSign i then .sig else if IsAuth i then .aut else .dec) = some p ∧ p.info = some m ∧
      m.origin ≠ 0 ∧ m.usage &&& (if IsDecipher i then 2 else 1) ≠ 0 ∧
      (¬ IsDecipher i → x.cr.sign m.type p.mat (toBeSigned x m.type i.c.data) = some d) ∧
      (IsDecipher i → m.type.isRsa = true → x.rsaDec p.mat ((i.c.data.drop 1).take (x.cr.pub m.type)) = .ok d) ∧
      (IsDecipher i → m.type.isRsa = false → ∃ pt, pt <:+ i.c.data ∧ pt.length = x.cr.pub m.type ∧
        x.cr.ecdh m.type p.mat pt = some d) := by
  obtain ⟨r, p, m, hr, hu, hc⟩ := given_usable hx h hg hk
  have e1 : IsSign i → ¬ IsDecipher i := fun h h' => absurd h.2.1 (by rw [h'.2.1]; decide)
  have e2 : IsAuth i → ¬ IsDecipher i := fun h h' => absurd (show i.c.ins = 0x88 from h) (by rw [h'.1]; decide)
  have e3 : IsAuth i → ¬ IsSign i := fun h h' => absurd (show i.c.ins = 0x88 from h) (by rw [h'.1]; decide)
  have ek : usedKey i = (if IsSign i then .sig else if IsAuth i then .aut else .dec) := by
    unfold usedKey
    rcases hk with h | h | h
    · rw [if_pos h, if_neg (by rw [h.1]; decide), if_pos h.2.1]
    · rw [if_neg (fun e => e1 e h), if_neg (fun e => e2 e h), if_neg (by rw [h.1]; decide), if_neg (by rw [h.2.1]; decide)]
    · rw [if_neg (e3 h), if_pos h, if_pos (show i.c.ins = 0x88 from h)]
  have eu : (if usedKey i = .dec then (2 : Byte) else 1) = if IsDecipher i then 2 else 1 := by
    rw [ek]
    rcases hk with h | h | h
    · rw [if_pos h, if_neg (e1 h)]; rfl
    · rw [if_neg (fun e => e1 e h), if_neg (fun e => e2 e h), if_pos h]; rfl
    · rw [if_neg (e3 h), if_pos h, if_neg (e2 h)]; rfl
  refine ⟨p, m, ek ▸ hu.key, hu.info, hu.origin, eu ▸ hu.usage, ?_, ?_, ?_⟩
  · intro hn
    rcases hc with ⟨_, h⟩ | ⟨h, _⟩
    · exact h
    · exact absurd h hn
  · intro hd hr
    rcases hc with ⟨h | h, _⟩ | ⟨_, ⟨_, h⟩ | ⟨h, _⟩⟩
    · exact absurd hd (e1 h)
    · exact absurd hd (e2 h)
    · exact h
    · rw [hr] at h; cases h
  · intro hd hr
    rcases hc with ⟨h | h, _⟩ | ⟨_, ⟨h, _⟩ | ⟨_, h⟩⟩
    · exact absurd hd (e1 h)
    · exact absurd hd (e2 h)
    · rw [hr] at h; cases h
    · exact h

end Verif.Pgp
