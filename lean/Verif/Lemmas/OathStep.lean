import Verif.Lemmas.OathProc
set_option linter.unusedSimpArgs false
namespace Verif.Oath
open Verif.Spec.Oath Cmd

variable {A : Fault → Prop} {x : Ext} {i : In} {f f' : Flash} {r : Ram}

/-! ### One operation -/

/-- The outcomes of an operation. -/
inductive StepEff (A : Fault → Prop) (x : Ext) (s : St) : Op → Out → St → Prop
  | apdu (i : In) (a : Reply) (f' : Flash) (r' : Ram) (h : ProcEff A x i s.flash s.ram (.done a) f' r') :
      StepEff A x s (.apdu i) (.reply a) ⟨f', r'⟩
  | apduCut (i : In) (f' : Flash) (r' : Ram) (h : ProcEff A x i s.flash s.ram .cut f' r') :
      StepEff A x s (.apdu i) .cut ⟨f', Ram.init⟩
  | touch (long : Bool) (b : Option Bytes) (f' : Flash) (r' : Ram)
      (h : TouchEff A x long s.flash s.ram b f' r') : StepEff A x s (.touch long) (.typed b) ⟨f', r'⟩
  | touchCut (long : Bool) (h : A .cut) : StepEff A x s (.touch long) .cut ⟨s.flash, Ram.init⟩
  | passRead : StepEff A x s .passRead
      (.reply (.resp (dumpSlot s.ram.slot0 ++ dumpSlot s.ram.slot1) SW.ok)) s
  | passWrite (c : Verif.Apdu.Capdu) (a : Reply) (f' : Flash) (r' : Ram)
      (h : PassWriteEff A c s.flash s.ram (.done a) f' r') :
      StepEff A x s (.passWrite c) (.reply a) ⟨f', r'⟩
  | passWriteCut (c : Verif.Apdu.Capdu) (f' : Flash) (r' : Ram)
      (h : PassWriteEff A c s.flash s.ram .cut f' r') :
      StepEff A x s (.passWrite c) .cut ⟨f', Ram.init⟩
  | install (reset : Bool) (rnd : Bytes) (a : Reply) (f' : Flash)
      (h : InstEff A reset s.flash (.done a) f') :
      StepEff A x s (.install reset rnd) (.reply a) ⟨f', poweroff s.ram⟩
  | installCut (reset : Bool) (rnd : Bytes) (f' : Flash) (h : InstEff A reset s.flash .cut f') :
      StepEff A x s (.install reset rnd) .cut ⟨f', Ram.init⟩
  | passInstall (reset : Bool) (a : Reply) (f' : Flash) (r' : Ram)
      (h : PassInstEff reset s.flash s.ram (.done a) f' r') :
      StepEff A x s (.passInstall reset) (.reply a) ⟨f', r'⟩
  | passInstallCut (reset : Bool) (f' : Flash) (r' : Ram)
      (h : PassInstEff reset s.flash s.ram .cut f' r') :
      StepEff A x s (.passInstall reset) .cut ⟨f', Ram.init⟩
  | powerOff : StepEff A x s .powerOff .none ⟨s.flash, poweroff s.ram⟩
  | boot : StepEff A x s .boot .none ⟨s.flash, Ram.init⟩

theorem exec_eff {m : M Reply} {s : St} {P : Outcome Reply → Flash → Ram → Prop}
    (h : wp A m (fun a => P (.done a)) (fun e => P (.done e)) (P .cut) s.flash s.ram)
    {env : Env} (henv : env.all A) {T : Out → St → Prop}
    (hd : ∀ a f' r', P (.done a) f' r' → T (.reply a) ⟨f', r'⟩)
    (hc : ∀ f' r', P .cut f' r' → T .cut ⟨f', Ram.init⟩) :
    T (exec m s env).2 (exec m s env).1 := by
  have := runCmd_of_wp (P := P) h henv
  unfold exec
  revert this
  rcases runCmd m s.flash s.ram env with ⟨f', r', o⟩
  cases o with
  | cut => exact hc f' r'
  | done a => exact hd a f' r'

theorem step_eff (hx : GoodHmac x) (s : St) (op : Op) {env : Env} (henv : env.all A) :
    StepEff A x s op (step x s op env).2 (step x s op env).1 := by
  cases op with
  | apdu i => exact exec_eff (process_eff hx) henv (fun _ _ _ => .apdu i _ _ _) (fun _ _ => .apduCut i _ _)
  | touch long =>
    simp only [step, execTouch]
    have h := touch_eff (A := A) hx (long := long) (f := s.flash) (r := s.ram) env henv
    revert h
    rcases (handleTouch x long).run ⟨s.flash, s.ram, env⟩ with ⟨a, w⟩
    rcases a with _ | (e | b)
    · rintro ⟨h, hf⟩
      show StepEff A x s (.touch long) .cut ⟨w.flash, Ram.init⟩
      rw [hf]; exact .touchCut long h
    · rintro ⟨h, _⟩; exact h.elim
    · rintro ⟨h, _⟩; exact .touch long b _ _ h
  | passRead =>
    exact exec_eff (P := fun o f' r' => o = .done (.resp (dumpSlot s.ram.slot0 ++ dumpSlot s.ram.slot1) SW.ok)
        ∧ f' = s.flash ∧ r' = s.ram)
      (by unfold passRead; apply wp_bind; apply wp_get; exact wp_pure ⟨rfl, rfl, rfl⟩) henv
      (by rintro a f' r' ⟨h, rfl, rfl⟩; cases h; exact .passRead)
      (by rintro f' r' ⟨h, _⟩; cases h)
  | passWrite c =>
    exact exec_eff passWrite_eff henv (fun _ _ _ => .passWrite c _ _ _) (fun _ _ => .passWriteCut c _ _)
  | install reset rnd =>
    exact exec_eff
      (P := fun o f' r' => (o ≠ .cut → r' = poweroff s.ram) ∧ InstEff A reset s.flash o f')
      (wp_mono install_eff (fun _ _ _ h => ⟨fun _ => h.1, h.2⟩) (fun _ _ _ h => ⟨fun _ => h.1, h.2⟩)
        (fun _ _ h => ⟨fun h' => absurd rfl h', h⟩)) henv
      (by rintro a f' r' ⟨h1, h2⟩; rw [h1 (by simp)]; exact .install reset rnd a f' h2)
      (by rintro f' r' ⟨_, h2⟩; exact .installCut reset rnd f' h2)
  | passInstall reset =>
    exact exec_eff passInstall_eff henv (fun _ _ _ => .passInstall reset _ _ _)
      (fun _ _ => .passInstallCut reset _ _)
  | powerOff => exact .powerOff
  | boot => exact .boot

/-! ### The slot file as a map -/

theorem store_none_iff {o : OathFile} (ho : f.oath = some o) {n : Bytes} (hn : n ≠ []) :
    store f n = none ↔ ∀ q ∈ o.recs, q.name ≠ n := by
  simp [store, hn, ho]

theorem store_nofile (ho : f.oath = none) : store f = Store.empty := by
  funext n; simp [store, ho, Store.empty]

theorem store_congr (h : f'.oath = f.oath) : store f' = store f := by
  funext n; simp [store, h]

theorem store_recs {o o' : OathFile} (ho : f.oath = some o) (ho' : f'.oath = some o')
    (h : o'.recs = o.recs) : store f' = store f := by
  funext n; simp [store, ho, ho', h]

/-- Unique names. -/
def Uniq (recs : List Rec) : Prop :=
  ∀ (j k : Nat) (q t : Rec), recs[j]? = some q → recs[k]? = some t → q.name ≠ [] → q.name = t.name → j = k

theorem store_of_get {o : OathFile} (ho : f.oath = some o) (hu : Uniq o.recs) {j : Nat} {q : Rec}
    (hj : o.recs[j]? = some q) (hn : q.name ≠ []) : store f q.name = some q := by
  cases hs : store f q.name with
  | none =>
    rw [store_none_iff ho hn] at hs
    exact absurd rfl (hs q (List.mem_of_getElem? hj))
  | some t =>
    simp only [store, hn, if_false, ho, Option.bind_some] at hs
    have h1 : t.name = q.name := by simpa using List.find?_some hs
    obtain ⟨k, hk⟩ := List.mem_iff_getElem?.mp (List.mem_of_find?_eq_some hs)
    have := hu j k q t hj hk hn h1.symm
    subst this
    rw [hj] at hk; exact hk.symm

theorem store_some_iff {o : OathFile} (ho : f.oath = some o) (hu : Uniq o.recs) {n : Bytes} {q : Rec} :
    store f n = some q ↔ n ≠ [] ∧ q.name = n ∧ ∃ j : Nat, o.recs[j]? = some q := by
  constructor
  · intro h
    have hn : n ≠ [] := by
      intro hn; simp [store, hn] at h
    simp only [store, hn, if_false, ho, Option.bind_some] at h
    exact ⟨hn, by simpa using List.find?_some h, List.mem_iff_getElem?.mp (List.mem_of_find?_eq_some h)⟩
  · rintro ⟨hn, rfl, j, hj⟩
    exact store_of_get ho hu hj hn

theorem store_name {n : Bytes} {q : Rec} (h : store f n = some q) : q.name = n ∧ n ≠ [] := by
  have hn : n ≠ [] := by
    intro hn; simp [store, hn] at h
  simp only [store, hn, if_false] at h
  obtain ⟨o, ho, h⟩ := Option.bind_eq_some_iff.mp h
  exact ⟨by simpa using List.find?_some h, hn⟩

theorem store_file {n : Bytes} {q : Rec} (h : store f n = some q) : ∃ o, f.oath = some o := by
  cases ho : f.oath with
  | none => rw [store_nofile ho] at h; cases h
  | some o => exact ⟨o, rfl⟩

/-- Replacing one record keeps names unique. -/
theorem uniq_set {recs : List Rec} (hu : Uniq recs) {j : Nat} {q q' : Rec} (hj : recs[j]? = some q)
    (hn : q'.name = [] ∨ q'.name = q.name ∨ ∀ t ∈ recs, t.name ≠ q'.name) : Uniq (recs.set j q') := by
  intro a b s t ha hb hs hst
  have hjl := lt_of_getElem? hj
  rw [List.getElem?_set] at ha hb
  by_cases h1 : j = a <;> by_cases h2 : j = b
  · exact h1.symm.trans h2
  · rw [if_pos h1, if_pos (h1 ▸ hjl)] at ha; rw [if_neg h2] at hb
    cases ha
    rcases hn with hn | hn | hn
    · exact absurd hn hs
    · exact absurd (hu j b q t hj hb (hn ▸ hs) (hn ▸ hst)) h2
    · exact absurd hst.symm (hn t (List.mem_of_getElem? hb))
  · rw [if_neg h1] at ha; rw [if_pos h2, if_pos (h2 ▸ hjl)] at hb
    cases hb
    rcases hn with hn | hn | hn
    · exact absurd (hst.trans hn) hs
    · exact absurd (hu j a q s hj ha (hn ▸ hst ▸ hs) (hn ▸ hst.symm)) h1
    · exact absurd hst (hn s (List.mem_of_getElem? ha))
  · rw [if_neg h1] at ha; rw [if_neg h2] at hb
    exact hu a b s t ha hb hs hst

/-- The map after replacing one record. -/
theorem store_set {o o' : OathFile} (ho : f.oath = some o) (ho' : f'.oath = some o') (hu : Uniq o.recs)
    {j : Nat} {q q' : Rec} (hj : o.recs[j]? = some q) (hr : o'.recs = o.recs.set j q')
    (hn : q'.name = [] ∨ q'.name = q.name ∨ ∀ t ∈ o.recs, t.name ≠ q'.name) (n : Bytes) :
    store f' n = if n = [] then none else if n = q'.name then some q'
      else if n = q.name then none else store f n := by
  have hu' : Uniq o'.recs := by rw [hr]; exact uniq_set hu hj hn
  have hjl := lt_of_getElem? hj
  by_cases h0 : n = []
  · simp [store, h0]
  rw [if_neg h0]
  by_cases h1 : n = q'.name
  · rw [if_pos h1, store_some_iff ho' hu']
    exact ⟨h0, h1.symm, j, by rw [hr]; simp [hjl]⟩
  · rw [if_neg h1]
    by_cases h2 : n = q.name
    · rw [if_pos h2, store_none_iff ho' h0, hr]
      intro t ht htn
      obtain ⟨k, hk⟩ := List.mem_iff_getElem?.mp ht
      rw [List.getElem?_set] at hk
      by_cases hjk : j = k
      · rw [if_pos hjk, if_pos (hjk ▸ hjl)] at hk
        cases hk; exact h1 htn.symm
      · rw [if_neg hjk] at hk
        exact hjk (hu j k q t hj hk (h2 ▸ h0) (h2 ▸ htn.symm))
    · rw [if_neg h2]
      apply Option.ext
      intro t
      rw [store_some_iff ho' hu', store_some_iff ho hu, hr]
      constructor
      · rintro ⟨_, h, k, hk⟩
        refine ⟨h0, h, k, ?_⟩
        rw [List.getElem?_set] at hk
        by_cases hjk : j = k
        · rw [if_pos hjk, if_pos (hjk ▸ hjl)] at hk
          cases hk; exact absurd h.symm h1
        · rwa [if_neg hjk] at hk
      · rintro ⟨_, h, k, hk⟩
        refine ⟨h0, h, k, ?_⟩
        rw [List.getElem?_set]
        by_cases hjk : j = k
        · subst hjk; rw [hj] at hk; cases hk; exact absurd h.symm h2
        · rwa [if_neg hjk]

theorem uniq_append {recs : List Rec} (hu : Uniq recs) {q' : Rec}
    (hn : ∀ t ∈ recs, t.name ≠ q'.name) : Uniq (recs ++ [q']) := by
  intro a b s t ha hb hs hst
  have hget : ∀ (k : Nat) (u : Rec), (recs ++ [q'])[k]? = some u →
      recs[k]? = some u ∨ (k = recs.length ∧ u = q') := by
    intro k u hk
    by_cases h : k < recs.length
    · left; rwa [List.getElem?_append_left h] at hk
    · right
      rw [List.getElem?_append_right (by omega)] at hk
      have hk' := lt_of_getElem? hk
      simp at hk'
      have : k = recs.length := by omega
      subst this; simp at hk; exact ⟨rfl, hk.symm⟩
  rcases hget a s ha with ha' | ⟨ha1, ha2⟩ <;> rcases hget b t hb with hb' | ⟨hb1, hb2⟩
  · exact hu a b s t ha' hb' hs hst
  · exact absurd (hb2 ▸ hst) (hn s (List.mem_of_getElem? ha'))
  · exact absurd (ha2 ▸ hst).symm (hn t (List.mem_of_getElem? hb'))
  · rw [ha1, hb1]

theorem store_append {o o' : OathFile} (ho : f.oath = some o) (ho' : f'.oath = some o')
    {q' : Rec} (hr : o'.recs = o.recs ++ [q']) (hn : ∀ t ∈ o.recs, t.name ≠ q'.name) (n : Bytes) :
    store f' n = if n = [] then none else if n = q'.name then some q' else store f n := by
  by_cases h0 : n = []
  · simp [store, h0]
  · rw [if_neg h0]
    simp only [store, h0, if_false, ho, ho', Option.bind_some, hr, List.find?_append]
    by_cases h1 : n = q'.name
    · rw [if_pos h1]
      have : o.recs.find? (fun r => decide (r.name = n)) = none := by
        simp only [List.find?_eq_none, decide_eq_true_eq]
        intro t ht; rw [h1]; exact hn t ht
      rw [this]; simp [h1]
    · rw [if_neg h1]
      simp [Ne.symm h1]

/-! ### Advancing -/

theorem wf_chal {q : Rec} (h : WfRec q) {c : Bytes} (hc : c.length = 8) : WfRec { q with chal := c } :=
  ⟨h.name, h.secret, h.type, h.digits, hc⟩

theorem advance_of_inc {q : Rec} (h : WfRec q) {c : Bytes} (hh : Hotp q)
    (hc : increaseCounter q.chal = some c) : Advance q { q with chal := c } ∧ c.length = 8 := by
  have := increaseCounter_some hc
  have hl : c.length = 8 := by rw [this.1, h.chal]
  exact ⟨.inr ⟨c, rfl, hl, .inl ⟨hh, this.2⟩⟩, hl⟩

theorem le_of_memcmp {a c : Bytes} (ha : a.length = 8) (hc : c.length = 8) (h : memcmpGt a c = false) :
    num a ≤ num c := by
  by_cases hlt : num c < num a
  · rw [(memcmpGt_iff (by rw [ha, hc])).mpr hlt] at h; cases h
  · omega

theorem advance_of_chal {q : Rec} (h : WfRec q) {c : Bytes} (ht : Totp q) (hi : IncOnly q)
    (hl : c.length = 8) (hc : memcmpGt q.chal c = false) : Advance q { q with chal := c } :=
  .inr ⟨c, rfl, hl, .inr ⟨ht, hi, le_of_memcmp h.chal hl hc⟩⟩

theorem advance_of_advTo {q q' : Rec} (h : WfRec q) {c : Bytes} (ha : AdvTo c q q') : Advance q q' := by
  rcases ha with rfl | ⟨⟨_, hh, _, hi⟩, hl, hc, rfl⟩
  · exact .inl rfl
  · exact advance_of_chal h (h.type.resolve_left hh) hi hl hc

theorem adv_name {q q' : Rec} (h : Advance q q') : q'.name = q.name := by
  rcases h with rfl | ⟨c, rfl, _⟩ <;> rfl

theorem adv_wf {q q' : Rec} (h : Advance q q') (hw : WfRec q) : WfRec q' := by
  rcases h with rfl | ⟨c, rfl, hc, _⟩
  · exact hw
  · exact wf_chal hw hc

theorem get_of_length {recs recs' : List Rec} (h : recs'.length = recs.length) {k : Nat} {q' : Rec}
    (hk : recs'[k]? = some q') : ∃ q, recs[k]? = some q := by
  have := lt_of_getElem? hk
  exact ⟨recs[k]'(by omega), by simp⟩

theorem get_of_length' {recs recs' : List Rec} (h : recs'.length = recs.length) {k : Nat} {q : Rec}
    (hk : recs[k]? = some q) : ∃ q', recs'[k]? = some q' := get_of_length h.symm hk

theorem valid_rel {o o' : OathFile} (ho : f.oath = some o) (hf : f' = { f with oath := some o' })
    (hv : Valid f) (h : Rel (fun _ => Advance) o o') : Valid f' := by
  obtain ⟨hl, hw, hu⟩ := hv o ho
  intro o2 ho2
  rw [hf] at ho2; cases ho2
  obtain ⟨_, _, hlen, hrel⟩ := h
  refine ⟨by omega, ?_, ?_⟩
  · intro q' hq'
    obtain ⟨k, hk⟩ := List.mem_iff_getElem?.mp hq'
    obtain ⟨q, hq⟩ := get_of_length hlen hk
    exact adv_wf (hrel k q q' hq hk) (hw q (List.mem_of_getElem? hq))
  · intro j k q' t' hj hk hn hnt
    obtain ⟨q, hq⟩ := get_of_length hlen hj
    obtain ⟨t, ht⟩ := get_of_length hlen hk
    have h1 := adv_name (hrel j q q' hq hj)
    have h2 := adv_name (hrel k t t' ht hk)
    exact hu j k q t hq ht (h1 ▸ hn) (by rw [← h1, ← h2]; exact hnt)

theorem advanced_rel {o o' : OathFile} (ho : f.oath = some o) (hf : f' = { f with oath := some o' })
    (hv : Valid f) (h : Rel (fun _ => Advance) o o') : (store f).Advanced (store f') := by
  have hu' : Uniq o'.recs := (valid_rel ho hf hv h o' (by rw [hf])).2.2
  have ho' : f'.oath = some o' := by rw [hf]
  obtain ⟨_, hw, hu⟩ := hv o ho
  obtain ⟨_, _, hlen, hrel⟩ := h
  intro n
  cases hs : store f n with
  | some q =>
    right
    obtain ⟨hn, hq, j, hj⟩ := (store_some_iff ho hu).mp hs
    obtain ⟨q', hq'⟩ := get_of_length' hlen hj
    have ha := hrel j q q' hj hq'
    exact ⟨q, q', rfl, (store_some_iff ho' hu').mpr ⟨hn, (adv_name ha).trans hq, j, hq'⟩, ha⟩
  | none =>
    left
    refine ⟨rfl, ?_⟩
    by_cases hn : n = []
    · simp [store, hn]
    · rw [store_none_iff ho' hn]
      intro q' hq' hnm
      obtain ⟨k, hk⟩ := List.mem_iff_getElem?.mp hq'
      obtain ⟨q, hq⟩ := get_of_length hlen hk
      exact (store_none_iff ho hn).mp hs q (List.mem_of_getElem? hq)
        ((adv_name (hrel k q q' hq hk)).symm.trans hnm)

theorem rel_set {o : OathFile} {j : Nat} {q q' : Rec} (hj : o.recs[j]? = some q) (h : Advance q q') :
    Rel (fun _ => Advance) o { o with recs := o.recs.set j q' } := by
  refine ⟨rfl, rfl, by simp, ?_⟩
  intro k a b ha hb
  rw [List.getElem?_set] at hb
  by_cases hjk : j = k
  · subst hjk
    rw [if_pos rfl, if_pos (lt_of_getElem? hj)] at hb
    rw [hj] at ha; cases ha; cases hb; exact h
  · rw [if_neg hjk] at hb; rw [ha] at hb; cases hb; exact .inl rfl

theorem Store.Advanced.refl (m : Store) : m.Advanced m := by
  intro n
  cases h : m n with
  | none => exact .inl ⟨rfl, rfl⟩
  | some q => exact .inr ⟨q, q, rfl, rfl, .inl rfl⟩

/-- What the calculation commands do to the file. -/
def Calc (f f' : Flash) : Prop :=
  f'.oath = f.oath ∨ ∃ o o', f.oath = some o ∧ f' = { f with oath := some o' } ∧ Rel (fun _ => Advance) o o'

theorem Calc.valid (h : Calc f f') (hv : Valid f) : Valid f' := by
  rcases h with h | ⟨o, o', ho, hf, hr⟩
  · intro o ho; exact hv o (h ▸ ho)
  · exact valid_rel ho hf hv hr

theorem Calc.advanced (h : Calc f f') (hv : Valid f) : (store f).Advanced (store f') := by
  rcases h with h | ⟨o, o', ho, hf, hr⟩
  · rw [store_congr h]; exact Store.Advanced.refl _
  · exact advanced_rel ho hf hv hr

theorem calc_setChal (hv : Valid f) {o : OathFile} (ho : f.oath = some o) {j : Nat} {q : Rec} {c : Bytes}
    (hj : o.recs[j]? = some q) (h : Advance q { q with chal := c })
    (hf : f' = setChal f o j q c ∨ (A .fail ∧ f' = f)) : Calc f f' := by
  rcases hf with rfl | ⟨_, rfl⟩
  · exact .inr ⟨o, _, ho, rfl, rel_set hj h⟩
  · exact .inl rfl

theorem calc_calculate {out : Outcome Reply} {r' : Ram} (hv : Valid f) (h : CalcEff A x i f r out f' r') :
    Calc f f' := by
  cases h with
  | bad => exact .inl rfl
  | cut => exact .inl rfl
  | totp => exact .inl rfl
  | totpInc o n c j q ho hq hj hn ht htouch hi hl hc f'' hf =>
    exact calc_setChal hv ho hj (advance_of_chal ((hv o ho).2.1 q (List.mem_of_getElem? hj)) ht hi hl hc) hf
  | hotp o n c j q ho hq hj hn ht htouch hc f'' hf =>
    exact calc_setChal hv ho hj (advance_of_inc ((hv o ho).2.1 q (List.mem_of_getElem? hj)) ht hc).1 hf

theorem calc_touch {out : Option Bytes} {r' : Ram} {long : Bool} (hv : Valid f)
    (h : TouchEff A x long f r out f' r') : Calc f f' := by
  cases h with
  | off => exact .inl rfl
  | static => exact .inl rfl
  | fails => exact .inl rfl
  | hotp n e o j q c h ho hj hn ht hc f'' hf =>
    exact calc_setChal hv ho hj (advance_of_inc ((hv o ho).2.1 q (List.mem_of_getElem? hj)) ht hc).1 hf

theorem calc_post (hv : Valid f) {o : OathFile} (ho : f.oath = some o) {c : Bytes}
    (h : AllPost (fun _ => AdvTo c) f o f') : Calc f f' := by
  obtain ⟨o', hf, h1, h2, h3, h4⟩ := h
  exact .inr ⟨o, o', ho, hf, h1, h2, h3, fun k q q' hq hq' =>
    advance_of_advTo ((hv o ho).2.1 q (List.mem_of_getElem? hq)) (h4 k q q' hq hq')⟩

theorem page_adv {c : Bytes} {a b k : Nat} {q q' : Rec} (h : PageRel A c a b k q q') : AdvTo c q q' := by
  unfold PageRel at h
  split at h
  · exact h.adv
  · exact .inl h

theorem calc_all {out : Outcome Reply} {r' : Ram} (hv : Valid f) (h : AllEff A x i f r out f' r') :
    Calc f f' := by
  cases h with
  | bad sw hsw r'' hr f'' hf =>
    rcases hf with rfl | ⟨o, c, ho, hp⟩
    · exact .inl rfl
    · exact calc_post hv ho hp
  | cut h f'' r'' hf =>
    rcases hf with rfl | ⟨o, c, ho, hp⟩
    · exact .inl rfl
    · exact calc_post hv ho hp
  | page o ho c t hc j hj hn f'' hf =>
    obtain ⟨o', hf, h1, h2, h3, h4⟩ := hf
    exact calc_post hv ho ⟨o', hf, h1, h2, h3, fun k q q' hq hq' => page_adv (h4 k q q' hq hq')⟩

theorem list_same {out : Outcome Reply} {r' : Ram} (h : ListEff A i f r out f' r') : f' = f := by
  cases h <;> rfl

theorem sel_same {out : Outcome Reply} {r' : Ram} (h : SelEff A i f r out f' r') : f' = f := by
  cases h <;> rfl

theorem val_same {out : Outcome Reply} {r' : Ram} (h : ValEff A x i f r out f' r') : f' = f := by
  cases h <;> rfl

theorem def_same {out : Outcome Reply} {r' : Ram} (h : DefEff A i f r out f' r') : f'.oath = f.oath := by
  cases h <;> rfl

/-- SET CODE leaves the records alone. -/
theorem code_recs {out : Outcome Reply} {r' : Ram} (h : CodeEff A x i f r out f' r') :
    f'.oath = f.oath ∨ ∃ o o', f.oath = some o ∧ f'.oath = some o' ∧ o'.recs = o.recs := by
  cases h with
  | bad => exact .inl rfl
  | io => exact .inl rfl
  | cut => exact .inl rfl
  | clear o ho => exact .inr ⟨o, _, ho, rfl, rfl⟩
  | set o ho => exact .inr ⟨o, _, ho, rfl, rfl⟩

theorem valid_recs (hv : Valid f)
    (h : f'.oath = f.oath ∨ ∃ o o', f.oath = some o ∧ f'.oath = some o' ∧ o'.recs = o.recs) : Valid f' := by
  rcases h with h | ⟨o, o', ho, ho', hr⟩
  · intro o ho; exact hv o (h ▸ ho)
  · intro o2 h2
    rw [ho'] at h2; cases h2
    rw [hr]; exact hv o ho

theorem store_recs' (h : f'.oath = f.oath ∨ ∃ o o', f.oath = some o ∧ f'.oath = some o' ∧ o'.recs = o.recs) :
    store f' = store f := by
  rcases h with h | ⟨o, o', ho, ho', hr⟩
  · exact store_congr h
  · exact store_recs ho ho' hr

theorem wf_of_put {d p c : Bytes} {q : Rec} (h : PutReq d q p c) : WfRec q := by
  refine ⟨h.name.2, h.secret, h.type, h.digits, ?_⟩
  rcases h.counter with ⟨_, h⟩ | ⟨_, k, hk, _, h⟩
  · rw [h]; rfl
  · rw [h]; simp [hk]

theorem ne_nil_of_valid {n : Bytes} (h : ValidName n) : n ≠ [] := by
  intro h0; rw [h0] at h; exact absurd h.1 (by simp)

/-- PUT keeps the file valid and inserts. -/
theorem put_file (hv : Valid f) {o : OathFile} (ho : f.oath = some o) {q : Rec} {p c d : Bytes} {u : Nat}
    (hq : PutReq d q p c) (hn : ∀ t ∈ o.recs, t.name ≠ q.name) (hu : Free o.recs u)
    (hl : u < 100 ∨ u < o.recs.length) (hf : f' = { f with oath := some { o with recs := putRec o.recs u q } }) :
    Valid f' ∧ store f q.name = none ∧ store f' = (store f).insert q := by
  obtain ⟨h1, h2, h3⟩ := hv o ho
  have hnn := ne_nil_of_valid hq.name
  have hfree : store f q.name = none := (store_none_iff ho hnn).mpr hn
  have ho' : f'.oath = some { o with recs := putRec o.recs u q } := by rw [hf]
  rcases hu with ⟨hu, _⟩ | ⟨t, ht, htn⟩
  · have hp : putRec o.recs u q = o.recs ++ [q] := by simp [putRec, hu]
    rw [hp] at ho'
    refine ⟨?_, hfree, ?_⟩
    · intro o2 h
      rw [ho'] at h; cases h
      refine ⟨by simp; omega, ?_, uniq_append h3 hn⟩
      intro t ht
      simp only [List.mem_append, List.mem_singleton] at ht
      rcases ht with ht | rfl
      · exact h2 t ht
      · exact wf_of_put hq
    · funext n
      rw [store_append ho ho' rfl hn n]
      unfold Store.insert
      by_cases h0 : n = []
      · rw [if_pos h0, if_neg (by rw [h0]; exact hnn.symm)]
        simp [store, h0]
      · rw [if_neg h0]
  · have hul := lt_of_getElem? ht
    rw [putRec_lt hul] at ho'
    refine ⟨?_, hfree, ?_⟩
    · intro o2 h
      rw [ho'] at h; cases h
      refine ⟨by simpa using h1, ?_, uniq_set h3 ht (.inr (.inr hn))⟩
      intro t' ht'
      rcases List.mem_or_eq_of_mem_set ht' with h | rfl
      · exact h2 _ h
      · exact wf_of_put hq
    · funext n
      rw [store_set ho ho' h3 ht rfl (.inr (.inr hn)) n]
      unfold Store.insert
      by_cases h0 : n = []
      · rw [if_pos h0, if_neg (by rw [h0]; exact hnn.symm)]
        simp [store, h0]
      · rw [if_neg h0, htn, if_neg h0]

theorem wf_name {q : Rec} (h : WfRec q) {n : Bytes} (hn : n.length ≤ 64) : WfRec { q with name := n } :=
  ⟨hn, h.secret, h.type, h.digits, h.chal⟩

/-- DELETE keeps the file valid and erases. -/
theorem del_file (hv : Valid f) {o : OathFile} (ho : f.oath = some o) {q : Rec} {j : Nat}
    (hj : o.recs[j]? = some q) (hn : q.name ≠ [])
    (hf : f'.oath = some { o with recs := o.recs.set j { q with name := [] } }) :
    Valid f' ∧ store f q.name ≠ none ∧ store f' = (store f).erase q.name := by
  obtain ⟨h1, h2, h3⟩ := hv o ho
  refine ⟨?_, ?_, ?_⟩
  · intro o2 h
    rw [hf] at h; cases h
    refine ⟨by simpa using h1, ?_, uniq_set h3 hj (.inl rfl)⟩
    intro t' ht'
    rcases List.mem_or_eq_of_mem_set ht' with h | rfl
    · exact h2 _ h
    · exact wf_name (h2 q (List.mem_of_getElem? hj)) (by simp)
  · rw [store_of_get ho h3 hj hn]; simp
  · funext n
    rw [store_set ho hf h3 hj rfl (.inl rfl) n]
    unfold Store.erase
    by_cases h0 : n = []
    · simp [h0, store]
    · rw [if_neg h0, if_neg h0]

/-- RENAME keeps the file valid and re-keys. -/
theorem ren_file (hv : Valid f) {o : OathFile} (ho : f.oath = some o) {q : Rec} {j : Nat} {a b : Bytes}
    (hj : o.recs[j]? = some q) (ha : q.name = a) (hva : ValidName a) (hvb : ValidName b)
    (hn : ∀ t ∈ o.recs, t.name ≠ b)
    (hf : f' = { f with oath := some { o with recs := o.recs.set j { q with name := b } } }) :
    Valid f' ∧ store f a ≠ none ∧ store f b = none ∧ store f' = (store f).rekey a b := by
  obtain ⟨h1, h2, h3⟩ := hv o ho
  have ho' : f'.oath = some { o with recs := o.recs.set j { q with name := b } } := by rw [hf]
  have hb0 := ne_nil_of_valid hvb
  have ha0 := ne_nil_of_valid hva
  have hsa : store f a = some q := by rw [← ha]; exact store_of_get ho h3 hj (ha ▸ ha0)
  refine ⟨?_, by rw [hsa]; simp, (store_none_iff ho hb0).mpr hn, ?_⟩
  · intro o2 h
    rw [ho'] at h; cases h
    refine ⟨by simpa using h1, ?_, uniq_set h3 hj (.inr (.inr hn))⟩
    intro t' ht'
    rcases List.mem_or_eq_of_mem_set ht' with h | rfl
    · exact h2 _ h
    · exact wf_name (h2 q (List.mem_of_getElem? hj)) hvb.2
  · funext n
    rw [store_set ho ho' h3 hj rfl (.inr (.inr hn)) n]
    unfold Store.rekey
    by_cases h0 : n = []
    · rw [if_pos h0, if_neg (by rw [h0]; exact hb0.symm), if_neg (by rw [h0]; exact ha0.symm)]
      simp [store, h0]
    · rw [if_neg h0, hsa]
      simp only [Option.map_some, ha]

theorem reply_ne {sw : SW} (h : sw ≠ SW.ok) : Out.reply (.sw sw) ≠ .reply (.sw SW.ok) := by
  intro h'; simp [Reply.sw] at h'; exact h h'

theorem io_ne : Out.reply ioErr ≠ .reply (.sw SW.ok) := by
  intro h; simp [ioErr, Reply.sw] at h; exact absurd h (by decide)

/-- What a command observed as `out` does to the credentials. -/
theorem proc_store {oc : Outcome Reply} {out : Out} {r' : Ram} (hv : Valid f)
    (h : ProcEff A x i f r oc f' r') (hout : out = match oc with | .done a => .reply a | .cut => .cut)
    {P : Prop} : Valid f' ∧ StoreStep P (store f) (.apdu i) out (store f') := by
  have n12 : (0x02 : Byte) ≠ 0x01 := by decide
  have hsame : ∀ {g : Flash}, (g.oath = f.oath ∨ ∃ o o', f.oath = some o ∧ g.oath = some o' ∧ o'.recs = o.recs) →
      (i.c.ins = 0x01 ∨ i.c.ins = 0x02 ∨ i.c.ins = 0x05 → out ≠ .reply (.sw SW.ok)) →
      Valid g ∧ StoreStep P (store f) (.apdu i) out (store g) := by
    intro g hg hi
    refine ⟨valid_recs hv hg, ?_⟩
    unfold StoreStep
    simp only
    rw [store_recs' hg]
    split
    · rename_i h1; exact .inr ⟨hi (.inl h1), rfl⟩
    split
    · rename_i h1; exact .inr ⟨hi (.inr (.inl h1)), rfl⟩
    split
    · rename_i h1; exact .inr ⟨hi (.inr (.inr h1)), rfl⟩
    split
    · exact Store.Advanced.refl _
    · rfl
  have hcalc : Calc f f' → (i.c.ins = 0xA2 ∨ i.c.ins = 0xA4 ∨ i.c.ins = 0xA5) →
      Valid f' ∧ StoreStep P (store f) (.apdu i) out (store f') := by
    intro hc hi
    refine ⟨hc.valid hv, ?_⟩
    unfold StoreStep
    simp only
    rw [if_neg (by rcases hi with h | h | h <;> rw [h] <;> decide),
      if_neg (by rcases hi with h | h | h <;> rw [h] <;> decide),
      if_neg (by rcases hi with h | h | h <;> rw [h] <;> decide), if_pos hi]
    exact hc.advanced hv
  cases h with
  | gate hv' h =>
    exact hsame (.inl rfl) fun _ => by rw [hout]; exact reply_ne (by decide)
  | put hv' hi h =>
    cases h with
    | bad sw h => exact hsame (.inl rfl) fun _ => by rw [hout]; exact reply_ne h
    | io h => exact hsame (.inl rfl) fun _ => by rw [hout]; exact io_ne
    | cut h => exact hsame (.inl rfl) fun _ => by rw [hout]; simp
    | dup => exact hsame (.inl rfl) fun _ => by rw [hout]; exact reply_ne (by decide)
    | full => exact hsame (.inl rfl) fun _ => by rw [hout]; exact reply_ne (by decide)
    | done o q p c u h12 ho hq hn hu hl =>
      obtain ⟨h1, h2, h3⟩ := put_file hv ho hq hn hu hl rfl
      refine ⟨h1, ?_⟩
      unfold StoreStep
      simp only
      rw [if_pos hi]
      exact .inl ⟨hout, q, p, c, hq, h2, h3⟩
  | delete hv' hi h =>
    cases h with
    | bad sw h => exact hsame (.inl rfl) fun _ => by rw [hout]; exact reply_ne h
    | io h r'' f'' hf => exact hsame (.inl hf) fun _ => by rw [hout]; exact io_ne
    | cut h r'' f'' hf => exact hsame (.inl hf) fun _ => by rw [hout]; simp
    | missing => exact hsame (.inl rfl) fun _ => by rw [hout]; exact reply_ne (by decide)
    | done o n j q h12 ho hq hj hn r'' w hp =>
      have hnn := ne_nil_of_valid hq.1
      obtain ⟨h1, h2, h3⟩ := del_file hv ho hj (hn ▸ hnn)
        (f' := { passFlash w f r' with oath := some { o with recs := o.recs.set j { q with name := [] } } }) rfl
      refine ⟨h1, ?_⟩
      unfold StoreStep
      simp only
      rw [if_neg (by rw [hi]; decide), if_pos hi]
      exact .inl ⟨hout, n, hq, hn ▸ h2, hn ▸ h3⟩
  | rename hv' hi h =>
    cases h with
    | bad sw h => exact hsame (.inl rfl) fun _ => by rw [hout]; exact reply_ne h
    | io h => exact hsame (.inl rfl) fun _ => by rw [hout]; exact io_ne
    | cut h => exact hsame (.inl rfl) fun _ => by rw [hout]; simp
    | dup => exact hsame (.inl rfl) fun _ => by rw [hout]; exact reply_ne (by decide)
    | missing => exact hsame (.inl rfl) fun _ => by rw [hout]; exact reply_ne (by decide)
    | done o a b j q h12 ho hq hn hj ha =>
      obtain ⟨h1, h2, h3, h4⟩ := ren_file hv ho hj ha hq.1 hq.2.1 hn rfl
      refine ⟨h1, ?_⟩
      unfold StoreStep
      simp only
      rw [if_neg (by rw [hi]; decide), if_neg (by rw [hi]; decide), if_pos hi]
      exact .inl ⟨hout, a, b, hq, h2, h3, h4⟩
  | setCode hv' hi h =>
    exact hsame (code_recs h) fun h' => by rw [hi] at h'; exact absurd h' (by decide)
  | list hv' hi h =>
    rw [list_same h]
    exact hsame (.inl rfl) fun h' => by rw [hi] at h'; exact absurd h' (by decide)
  | calculate hv' hi h => exact hcalc (calc_calculate hv h) (.inl hi)
  | validate hi h =>
    rw [val_same h]
    exact hsame (.inl rfl) fun h' => by rw [hi] at h'; exact absurd h' (by decide)
  | select hi hp h =>
    rw [sel_same h]
    exact hsame (.inl rfl) fun h' => by rw [hi] at h'; exact absurd h' (by decide)
  | all hv' hi hp h => exact hcalc (calc_all hv h) (.inr (.inl hi))
  | moreList hv' hi hr h =>
    rw [list_same h]
    exact hsame (.inl rfl) fun h' => by rw [hi] at h'; exact absurd h' (by decide)
  | moreAll hv' hi hr h => exact hcalc (calc_all hv h) (.inr (.inr hi))
  | setDefault hv' hi h =>
    exact hsame (.inl (def_same h)) fun h' => by rw [hi] at h'; exact absurd h' (by decide)
  | other sw h hi => exact hsame (.inl rfl) fun _ => by rw [hout]; exact reply_ne h

theorem inst_store {reset : Bool} {o : Outcome Reply} (hv : Valid f) (h : InstEff A reset f o f') :
    Valid f' ∧ (store f' = store f ∨ (store f' = Store.empty ∧ (reset = true ∨ A .fail))) := by
  cases h with
  | keep o h hr => exact ⟨hv, .inl rfl⟩
  | io sw h => exact ⟨hv, .inl rfl⟩
  | cut h => exact ⟨hv, .inl rfl⟩
  | wiped h out k hk hkey =>
    have he : store { f with oath := some k } = Store.empty := by
      funext n; simp [store, hk, Store.empty]
    refine ⟨?_, ?_⟩
    · intro o2 h2
      cases h2
      rw [hk]; simp
    · rcases h with h | h | h
      · exact .inr ⟨he, .inl h⟩
      · exact .inl (he.trans (store_nofile h).symm)
      · exact .inr ⟨he, .inr h⟩

/-- Every operation keeps the slot file valid and acts on the map as specified. -/
theorem step_store {s s' : St} {op : Op} {out : Out} (hv : Valid s.flash) (h : StepEff A x s op out s') :
    Valid s'.flash ∧ StoreStep (A .fail) (store s.flash) op out (store s'.flash) := by
  have same : ∀ {g : Flash}, g.oath = s.flash.oath → Valid g ∧ store g = store s.flash := by
    intro g hg
    exact ⟨valid_recs hv (.inl hg), store_congr hg⟩
  cases h with
  | apdu i a f' r' h => exact proc_store hv h rfl
  | apduCut i f' r' h => exact proc_store hv h rfl
  | touch long b f' r' h => exact ⟨(calc_touch hv h).valid hv, (calc_touch hv h).advanced hv⟩
  | touchCut => exact ⟨hv, Store.Advanced.refl _⟩
  | passRead => exact ⟨hv, rfl⟩
  | passWrite c a f' r' h => exact same (by cases h <;> rfl)
  | passWriteCut c f' r' h => exact same (by cases h <;> rfl)
  | install reset rnd a f' h => exact inst_store hv h
  | installCut reset rnd f' h => exact inst_store hv h
  | passInstall reset a f' r' h => cases h with | mk hf => exact same hf
  | passInstallCut reset f' r' h => cases h with | mk hf => exact same hf
  | powerOff => exact ⟨hv, rfl⟩
  | boot => exact ⟨hv, rfl⟩

end Verif.Oath
