import Verif.Lemmas.PgpCert
/-
The certificate that is meant, by the log and in the memory of the OpenPGP applet.
-/
set_option linter.unusedSimpArgs false
namespace Verif.Pgp
open Cmd Verif.Spec.Pgp Verif.Spec.PgpData Verif.Spec.PgpCert Verif.KeyFile

variable {A : Fault → Prop} {x : Ext} {i : In} {f f' : Flash} {r r' r0 : Ram} {o : Outcome Reply} {log : List Entry} {s : St}

/-! ### The log -/

theorem last_skip {out : Out} (h : i.c.cla ≠ 0 ∨ i.c.ins = 0xCC) : last ((s, .apdu i, out) :: log) = last log := by
  simp only [last]; rw [if_pos h]

theorem last_cmd {out : Out} (hc : i.c.cla = 0) (hi : i.c.ins ≠ 0xCC) : last ((s, .apdu i, out) :: log) = some (i, out) := by
  simp only [last]; rw [if_neg (by rintro (h | h); exact h hc; exact hi h)]

theorem meant_skip {out : Out} (h : i.c.cla ≠ 0 ∨ i.c.ins = 0xCC) : meant ((s, .apdu i, out) :: log) = meant log := by
  unfold meant; rw [last_skip h]

theorem meant_cmd {out : Out} (hc : i.c.cla = 0) (hi : i.c.ins ≠ 0xCC) (ha : i.c.ins ≠ 0xA5) :
    meant ((s, .apdu i, out) :: log) = .sig := by
  unfold meant; rw [last_cmd hc hi]; simp [ha]

theorem selected_skip {out : Out} (h : i.c.cla ≠ 0 ∨ i.c.ins = 0xCC) : Selected ((s, .apdu i, out) :: log) ↔ Selected log := by
  unfold Selected; rw [last_skip h]

theorem read_skip {out : Out} (h : i.c.cla ≠ 0 ∨ i.c.ins = 0xCC) : Read ((s, .apdu i, out) :: log) ↔ Read log := by
  unfold Read; rw [last_skip h]

/-! ### The state machine -/

theorem track_sel (h : i.c.ins = 0xA5) : track i.c r = some { r with state := .selectData } := by
  simp [track, h]

theorem track_get (h : i.c.ins = 0xCA) (ht : tagOf i.c = 0x7F21) (h0 : track i.c r = some r0) :
    (r.state ≠ .getCert → r0.state = .getCert ∧ r0.occ = r.occ) ∧ (r.state = .getCert → r0.state = .normal ∧ r0.occ = 0) := by
  obtain ⟨h1, h2⟩ := tag_iff.mp ht
  unfold track at h0
  simp only [h, h1, h2] at h0
  revert h0
  cases hs : r.state <;> simp <;> rintro rfl <;> simp

theorem track_put (h : i.c.ins = 0xDA) (ht : tagOf i.c = 0x7F21) (h0 : track i.c r = some r0) :
    r0.state = .normal ∧ (r.state ≠ .getCert → r0.occ = r.occ) ∧ (r.state = .getCert → r0.occ = 0) := by
  obtain ⟨h1, h2⟩ := tag_iff.mp ht
  unfold track at h0
  simp only [h, h1, h2] at h0
  revert h0
  cases hs : r.state <;> simp <;> rintro rfl <;> simp [hs]

theorem track_other (h1 : i.c.ins ≠ 0xA5) (h2 : i.c.ins ≠ 0xCC) (h3 : i.c.ins = 0xCA → tagOf i.c ≠ 0x7F21)
    (h4 : i.c.ins = 0xDA → tagOf i.c ≠ 0x7F21) (h0 : track i.c r = some r0) :
    r0.state = .normal ∧ (r.state = .normal → r0.occ = r.occ) ∧ (r.state ≠ .normal → r0.occ = 0) := by
  have e1 : (i.c.ins == 0xCA && i.c.p1 == 0x7F && i.c.p2 == 0x21) = false := by
    rw [Bool.eq_false_iff]
    simp only [ne_eq, Bool.and_eq_true, beq_iff_eq]
    exact fun ⟨⟨a, b⟩, c⟩ => h3 a (tag_iff.mpr ⟨b, c⟩)
  have e2 : (i.c.ins == 0xDA && i.c.p1 == 0x7F && i.c.p2 == 0x21) = false := by
    rw [Bool.eq_false_iff]
    simp only [ne_eq, Bool.and_eq_true, beq_iff_eq]
    exact fun ⟨⟨a, b⟩, c⟩ => h4 a (tag_iff.mpr ⟨b, c⟩)
  unfold track at h0
  simp only [e1, e2] at h0
  revert h0
  cases hs : r.state <;> simp [h1, h2] <;> rintro rfl <;> simp [hs]

theorem certOf_nth {b : Byte} {k : K} (h : certOf b = some k) : b.toNat = nth k := by
  unfold certOf at h
  repeat' split at h
  all_goals first | (cases h; done) | skip
  all_goals
    rename_i hb
    simp only [beq_iff_eq] at hb
    subst hb
    cases h
    rfl

theorem certOf_cert {b : Byte} (h : b ≤ 2) : certOf b = some (cert b) := by
  unfold certOf cert
  by_cases h0 : b = 0
  · simp [h0]
  by_cases h1 : b = 1
  · simp [h1]
  have h2 : b = 2 := by
    apply UInt8.toNat_inj.mp
    have a : b.toNat ≠ 0 := fun e => h0 (UInt8.toNat_inj.mp e)
    have c : b.toNat ≠ 1 := fun e => h1 (UInt8.toNat_inj.mp e)
    have d : b.toNat ≤ 2 := UInt8.le_iff_toNat_le.mp h
    show b.toNat = 2
    omega
  simp [h2]

/-! ### The invariant -/

/-- The memory agrees with the log. -/
structure Agrees (log : List Entry) (f : Flash) (r : Ram) : Prop where
  normal : r.state = .normal → r.occ = 0 ∧ meant log = .sig
  sel : r.state = .selectData → certOf r.occ = some (meant log) ∧ Selected log
  get : r.state = .getCert → meant log = .sig ∧ Read log
  term : termOf f = some 1 → r.occ = 0
  cur : ∀ n, cursor log = some n → r.state = .getCert → r.occ.toNat = n

/-- For the next command, 7F21 is the certificate that is meant. -/
theorem Agrees.occ (h : Agrees log f r) (h' : r.state ≠ .getCert) : certOf r.occ = some (meant log) := by
  cases hs : r.state with
  | normal => rw [(h.normal hs).1, (h.normal hs).2]; rfl
  | selectData => exact (h.sel hs).1
  | getCert => exact absurd hs h'

theorem Agrees.get_occ (h : Agrees log f r) (hi : i.c.ins = 0xCA) (ht : tagOf i.c = 0x7F21) (h0 : track i.c r = some r0) :
    certOf r0.occ = some (meant log) := by
  have := track_get hi ht h0
  by_cases hs : r.state = .getCert
  · rw [(this.2 hs).2, (h.get hs).1]; rfl
  · rw [(this.1 hs).2]; exact h.occ hs

theorem Agrees.put_occ (h : Agrees log f r) (hi : i.c.ins = 0xDA) (ht : tagOf i.c = 0x7F21) (h0 : track i.c r = some r0) :
    certOf r0.occ = some (meant log) := by
  have := track_put hi ht h0
  by_cases hs : r.state = .getCert
  · rw [this.2.2 hs, (h.get hs).1]; rfl
  · rw [this.2.1 hs]; exact h.occ hs

/-- A command that moves the machine to its normal state. -/
theorem Agrees.to_normal {out : Out} (hc : i.c.cla = 0) (hi : i.c.ins ≠ 0xCC) (ha : i.c.ins ≠ 0xA5) (hs : r.state = .normal)
    (ho : r.occ = 0) : Agrees ((s, .apdu i, out) :: log) f r :=
  ⟨fun _ => ⟨ho, meant_cmd hc hi ha⟩, fun h => (by rw [hs] at h; cases h), fun h => (by rw [hs] at h; cases h), fun _ => ho,
    fun _ _ h => (by rw [hs] at h; cases h)⟩

theorem Agrees.to_get {out : Out} (hc : i.c.cla = 0) (hi : i.c.ins = 0xCA) (ht : tagOf i.c = 0x7F21) (hs : r.state = .getCert)
    (ho : certOf r.occ = some (meant log)) (hz : termOf f = some 1 → r.occ = 0) : Agrees ((s, .apdu i, out) :: log) f r := by
  have h1 : i.c.ins ≠ 0xCC := by rw [hi]; decide
  have h2 : i.c.ins ≠ 0xA5 := by rw [hi]; decide
  refine ⟨fun h => (by rw [hs] at h; cases h), fun h => (by rw [hs] at h; cases h),
    fun _ => ⟨meant_cmd hc h1 h2, i, out, last_cmd hc h1, hi, ht⟩, hz, fun n hn _ => ?_⟩
  simp only [cursor] at hn
  rw [if_neg (by simp [hc]), if_neg h1, if_pos ⟨hi, ht⟩] at hn
  injection hn with hn
  rw [← hn]
  exact certOf_nth ho

theorem out_sw_iff {sw sw' : SW} : outOf (.done (.sw sw)) = .reply (.sw sw') ↔ sw = sw' := by
  simp [outOf]

theorem trk_agrees (h : TrkEff i s.flash r o f' r') (ho : o ≠ .cut) (hA : Agrees log s.flash r)
    (ht : Tidy ((s, .apdu i, outOf o) :: log)) : Agrees ((s, .apdu i, outOf o) :: log) f' r' := by
  obtain ⟨_, _, hp, h5⟩ := ht
  cases h with
  | cut => exact absurd rfl ho
  | same h sw hs =>
    refine ⟨fun e => ?_, fun e => ?_, fun e => ?_, hA.term, fun n hn e => ?_⟩
    · rw [meant_skip h]; exact hA.normal e
    · rw [meant_skip h, selected_skip h]; exact hA.sel e
    · rw [meant_skip h, read_skip h]; exact hA.get e
    · simp only [cursor] at hn
      by_cases hc : i.c.cla = 0
      · have hi : i.c.ins = 0xCC := h.resolve_left (fun h => h hc)
        simp [hc, hi, outOf, hs] at hn
      · rw [if_pos hc] at hn; exact hA.cur n hn e
  | gate hc _ ht sw hs hg =>
    by_cases h1 : i.c.ins = 0xA5
    · have h6 : sw ≠ 0x6900 := fun e => h5 ⟨i, rfl, h1⟩ (by rw [e]; rfl)
      have h7 := hg.resolve_left h6
      have h2 : i.c.ins ≠ 0xCC := by rw [h1]; decide
      rw [track_sel h1] at ht
      injection ht with ht; subst ht
      have hm : meant ((s, .apdu i, outOf (.done (.sw sw))) :: log) = .sig := by
        unfold meant
        rw [last_cmd hc h2]
        simp only [out_sw_iff]
        rw [if_neg (fun h => hs h.2)]
      refine ⟨fun e => (by cases e), fun _ => ⟨?_, i, _, last_cmd hc h2, h1⟩, fun e => (by cases e), fun _ => hA.term h7,
        fun n _ e => (by cases e)⟩
      rw [hm]
      show certOf r.occ = _
      rw [hA.term h7]; rfl
    by_cases h2 : i.c.ins = 0xCC
    · have h3 : r.state = .getCert ∧ r' = r := by
        unfold track at ht
        simp only [h2] at ht
        revert ht
        cases hs : r.state <;> simp
        exact fun h => h.symm
      rw [h3.2]
      refine ⟨fun e => ?_, fun e => ?_, fun e => ?_, hA.term, fun n hn e => ?_⟩
      · rw [h3.1] at e; cases e
      · rw [h3.1] at e; cases e
      · rw [meant_skip (.inr h2), read_skip (.inr h2)]; exact hA.get e
      · simp [cursor, hc, h2, outOf, hs] at hn
    by_cases h3 : i.c.ins = 0xCA ∧ tagOf i.c = 0x7F21
    · have := track_get h3.1 h3.2 ht
      by_cases hs : r.state = .getCert
      · exact .to_normal hc h2 h1 (this.2 hs).1 (this.2 hs).2
      · exact .to_get hc h3.1 h3.2 (this.1 hs).1 (hA.get_occ h3.1 h3.2 ht) (fun e => by rw [(this.1 hs).2]; exact hA.term e)
    by_cases h4 : i.c.ins = 0xDA ∧ tagOf i.c = 0x7F21
    · have := track_put h4.1 h4.2 ht
      refine .to_normal hc h2 h1 this.1 ?_
      cases hst : r.state with
      | normal => rw [this.2.1 (by simp [hst])]; exact (hA.normal hst).1
      | getCert => exact this.2.2 hst
      | selectData =>
        rcases hp _ ⟨i, rfl, h4.1, h4.2, rfl⟩ (hA.sel hst).2 with ⟨d, hk⟩ | hk
        · rw [show outOf (.done (.sw sw)) = .reply (.sw sw) from rfl] at hk
          injection hk with hk; injection hk with _ hk; exact absurd hk hs
        · cases hk
    · have := track_other h1 h2 (fun a b => h3 ⟨a, b⟩) (fun a b => h4 ⟨a, b⟩) ht
      refine .to_normal hc h2 h1 this.1 ?_
      by_cases hst : r.state = .normal
      · rw [this.2.1 hst]; exact (hA.normal hst).1
      · exact this.2.2 hst
  | sel hc hi ht sw r' hs ho' =>
    have h2 : i.c.ins ≠ 0xCC := by rw [hi]; decide
    refine ⟨fun e => (by rw [hs] at e; cases e), fun _ => ⟨?_, i, _, last_cmd hc h2, hi⟩, fun e => (by rw [hs] at e; cases e),
      fun e => absurd e ht, fun n _ e => (by rw [hs] at e; cases e)⟩
    unfold meant
    rw [last_cmd hc h2]
    simp only [out_sw_iff]
    rcases ho' with ⟨rfl, h, hle⟩ | ⟨hne, h⟩
    · rw [if_pos ⟨hi, rfl⟩, h]; exact certOf_cert hle
    · rw [if_neg (fun h => hne h.2), h]; rfl
  | next hc hi ht hr a r' hs ho' =>
    refine ⟨fun e => (by rw [hs] at e; cases e), fun e => (by rw [hs] at e; cases e), fun e => ?_, fun e => absurd e ht,
      fun n hn e => ?_⟩
    · rw [meant_skip (.inr hi), read_skip (.inr hi)]; exact hA.get hr
    · simp only [cursor] at hn
      rw [if_neg (by simp [hc]), if_pos hi] at hn
      rcases ho' with ho' | ⟨k, d, hk, hk', ho', hd, rfl⟩
      · cases a with
        | ub => cases hn
        | resp d sw =>
          simp only [outOf] at hn
          by_cases hsw : sw = 0x9000
          · exact absurd (by rw [hsw]) (ho' d)
          · rw [if_neg hsw] at hn; cases hn
      · simp only [outOf] at hn
        rw [if_pos trivial] at hn
        obtain ⟨m, hm, rfl⟩ := Option.map_eq_some_iff.mp hn
        have h1 := hA.cur m hm hr
        rw [ho', certOf_nth hk]
        have h3 := certOf_nth hk
        rw [UInt8.toNat_add] at h3
        have h4 : r.occ.toNat < 256 := r.occ.toNat_lt
        have h5 : (1 : UInt8).toNat = 1 := rfl
        have h6 : nth k ≠ 0 := by cases k <;> simp_all [nth]
        omega
  | put hc hi hg r0 ht a f' r' hs ho' =>
    have h2 : i.c.ins ≠ 0xCC := by rw [hi]; decide
    have h1 : i.c.ins ≠ 0xA5 := by rw [hi]; decide
    have := track_put hi hg ht
    refine .to_normal hc h2 h1 (hs.trans this.1) ?_
    rcases ho' with ⟨hb, ho', _⟩ | ⟨k, _, ho', _⟩
    · rw [ho']
      cases hst : r.state with
      | normal => rw [this.2.1 (by simp [hst])]; exact (hA.normal hst).1
      | getCert => exact this.2.2 hst
      | selectData =>
        rcases hp _ ⟨i, rfl, hi, hg, rfl⟩ (hA.sel hst).2 with ⟨d, hk⟩ | hk
        · injection hk with hk; exact absurd hk (hb d)
        · cases hk
    · exact ho'
  | other hc h1 h2 h4 r0 ht a f' r' ho' hs hg =>
    by_cases h3 : i.c.ins = 0xCA ∧ tagOf i.c = 0x7F21
    · obtain ⟨hs', ht1, rfl, _⟩ := hg h3.1 h3.2
      have := track_get h3.1 h3.2 ht
      by_cases hst : r.state = .getCert
      · exact .to_normal hc h2 h1 (hs'.trans (this.2 hst).1) (ho'.trans (this.2 hst).2)
      · exact .to_get hc h3.1 h3.2 (hs'.trans (this.1 hst).1) (by rw [ho']; exact hA.get_occ h3.1 h3.2 ht)
          (fun e => absurd e ht1)
    · have := track_other h1 h2 (fun a b => h3 ⟨a, b⟩) h4 ht
      refine .to_normal hc h2 h1 (by rcases hs with hs | hs; exact hs.trans this.1; exact hs) (ho'.trans ?_)
      by_cases hst : r.state = .normal
      · rw [this.2.1 hst]; exact (hA.normal hst).1
      · exact this.2.2 hst

/-- The invariant. -/
def CertInv (log : List Entry) (s : St) : Prop := Tidy log → ∀ r, s.ram = some r → Agrees log s.flash r

theorem agrees_off (hs : r.state = .normal) (ho : r.occ = 0) (h : last log = none) : Agrees log f r :=
  ⟨fun _ => ⟨ho, by unfold meant; rw [h]⟩, fun e => (by rw [hs] at e; cases e), fun e => (by rw [hs] at e; cases e), fun _ => ho,
    fun _ _ e => (by rw [hs] at e; cases e)⟩

theorem inst_occ (h : InstEff A f r o f' r') (ho : o ≠ .cut) : r'.state = .normal ∧ r'.occ = r.occ := by
  cases h with
  | done => exact ⟨rfl, rfl⟩
  | fail h f' hm r' hr => rcases hr with rfl | rfl <;> exact ⟨rfl, rfl⟩
  | cut => exact absurd rfl ho

theorem step_agrees (hx : x.Ok) {op : Op} {env : Env} (hi : CertInv log s) :
    CertInv ((s, op, (step x s op env).2) :: log) (step x s op env).1 := by
  intro ht r' hr'
  have hi' := hi ht.1
  have he := step_eff (A := anyFault) hx (s := s) (op := op) (env := env) anyAll
  by_cases hop : ∃ i, op = .apdu i
  · obtain ⟨i, rfl⟩ := hop
    cases hr : s.ram with
    | none =>
      obtain ⟨f, ram⟩ := s
      dsimp only at hr
      subst hr
      cases hr'
    | some r =>
      obtain ⟨o, f', r1, h, e⟩ := step_trk (x := x) (i := i) (env := env) hr
      rw [e] at ht hr' ⊢
      cases o with
      | cut => cases hr'
      | done a =>
        injection hr' with hr'; subst hr'
        exact trk_agrees h (by simp) (hi' r hr) ht
  · generalize (step x s op env).1 = s', (step x s op env).2 = out at *
    obtain ⟨_, hd, _, _⟩ := ht
    cases he with
    | off op h ho => rw [h] at hr'; cases hr'
    | apdu i => exact absurd ⟨i, rfl⟩ hop
    | deselect r h =>
      injection hr' with hr'; subst hr'
      have hd := hd (.inl rfl)
      have hA := hi' r h
      have hs : r.state = .normal := by
        cases hs : r.state with
        | normal => rfl
        | selectData => exact absurd (hA.sel hs).2 hd.1
        | getCert => exact absurd (hA.get hs).2 hd.2
      exact agrees_off rfl (hA.normal hs).1 rfl
    | factory r h o f' r1 h1 =>
      have hd := hd (.inr rfl)
      have hA := hi' r h
      have hs : r.state = .normal := by
        cases hs : r.state with
        | normal => rfl
        | selectData => exact absurd (hA.sel hs).2 hd.1
        | getCert => exact absurd (hA.get hs).2 hd.2
      cases o with
      | cut => cases hr'
      | done a =>
        injection hr' with hr'; subst hr'
        have := inst_occ h1 (by simp)
        exact agrees_off this.1 (this.2.trans (hA.normal hs).1) rfl
    | boot o f' r1 h1 =>
      cases o with
      | cut => cases hr'
      | done a =>
        injection hr' with hr'; subst hr'
        cases h1 with
        | nop => exact agrees_off rfl rfl rfl
        | inst _ _ _ _ h1 =>
          have := inst_occ h1 (by simp)
          exact agrees_off this.1 this.2 rfl

theorem run_agrees (hx : x.Ok) (s : St) (hs : s.ram = none) (h : List (Op × Env)) : CertInv (run x s [] h).2 (run x s [] h).1 :=
  run_inv (x := x) (I := CertInv) (P := fun _ _ => True) (fun _ _ _ _ _ hi => step_agrees hx hi) h s []
    (fun _ _ => trivial) (fun _ r hr => by rw [hs] at hr; cases hr)

end Verif.Pgp
