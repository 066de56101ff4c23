import Verif.Lemmas.OathCalc
set_option linter.unusedSimpArgs false
namespace Verif.Oath
open Verif.Spec.Oath Cmd

variable {A : Fault → Prop} {x : Ext} {i : In} {f : Flash} {r : Ram}

/-! ### CALCULATE ALL -/

/-- Records whose moving factor CALCULATE ALL advances. -/
def Active (q : Rec) : Prop := q.name ≠ [] ∧ ¬ Hotp q ∧ ¬ NeedsTouch q ∧ IncOnly q

/-- The answer of CALCULATE ALL for one record. -/
def allEntry (x : Ext) (trunc : Bool) (c : Bytes) (q : Rec) : Bytes :=
  if q.name = [] then []
  else nameTlv q.name ++
    (if Hotp q then [0x77, 1, q.digits] else if NeedsTouch q then [0x7C, 1, q.digits]
     else codeResp x trunc q c)

/-- The answer for records `a` to `b - 1`. -/
def allSpan (x : Ext) (trunc : Bool) (c : Bytes) (recs : List Rec) (a b : Nat) : Bytes :=
  ((recs.drop a).take (b - a)).flatMap (allEntry x trunc c)

/-- A record before and after, when it may have been advanced to `c`. -/
def AdvTo (c : Bytes) (q q' : Rec) : Prop :=
  q' = q ∨ (Active q ∧ c.length = 8 ∧ memcmpGt q.chal c = false ∧ q' = { q with chal := c })

/-- A record before and after, when its code was put into the answer. -/
def Passed (A : Fault → Prop) (c : Bytes) (q q' : Rec) : Prop :=
  (¬ Active q ∧ q' = q) ∨
  (Active q ∧ c.length = 8 ∧ memcmpGt q.chal c = false ∧ (q' = { q with chal := c } ∨ (A .fail ∧ q' = q)))

theorem Passed.adv {c : Bytes} {q q' : Rec} (h : Passed A c q q') : AdvTo c q q' := by
  rcases h with ⟨_, h⟩ | ⟨h1, h2, h3, h4 | ⟨_, h4⟩⟩
  · exact .inl h
  · exact .inr ⟨h1, h2, h3, h4⟩
  · exact .inl h4

/-- Two record files of the same length related pointwise. -/
def Rel (R : Nat → Rec → Rec → Prop) (o o' : OathFile) : Prop :=
  o'.key = o.key ∧ o'.handle = o.handle ∧ o'.recs.length = o.recs.length ∧
  ∀ k q q', o.recs[k]? = some q → o'.recs[k]? = some q' → R k q q'

theorem Rel.refl {R : Nat → Rec → Rec → Prop} {o : OathFile} (h : ∀ k q, R k q q) : Rel R o o :=
  ⟨rfl, rfl, rfl, fun k q q' h1 h2 => by rw [h1] at h2; cases h2; exact h k q⟩

theorem Rel.mono {R S : Nat → Rec → Rec → Prop} {o o' : OathFile} (h : Rel R o o')
    (hs : ∀ k q q', R k q q' → S k q q') : Rel S o o' :=
  ⟨h.1, h.2.1, h.2.2.1, fun k q q' h1 h2 => hs k q q' (h.2.2.2 k q q' h1 h2)⟩

/-- The flash after CALCULATE ALL. -/
def AllPost (R : Nat → Rec → Rec → Prop) (f : Flash) (o : OathFile) (f' : Flash) : Prop :=
  ∃ o', f' = { f with oath := some o' } ∧ Rel R o o'

theorem AllPost.refl {R : Nat → Rec → Rec → Prop} {o : OathFile} (ho : f.oath = some o)
    (h : ∀ k q, R k q q) : AllPost R f o f :=
  ⟨o, by cases f; simp at ho; simp [ho], Rel.refl h⟩

/-- The step at one record, then the rest. -/
theorem AllPost.step {R S : Nat → Rec → Rec → Prop} {o o1 : OathFile} {f1 f' : Flash} {j : Nat}
    {q q1 : Rec} (hq : o.recs[j]? = some q) (hf1 : f1 = { f with oath := some o1 })
    (ho1 : o1 = { o with recs := o.recs.set j q1 }) (h : AllPost R f1 o1 f')
    (hne : ∀ k q q', k ≠ j → R k q q' → S k q q') (hj : ∀ q', R j q1 q' → S j q q') :
    AllPost S f o f' := by
  obtain ⟨o', hf', h1, h2, h3, h4⟩ := h
  subst ho1
  refine ⟨o', by rw [hf', hf1], h1, h2, by simpa using h3, ?_⟩
  intro k p p' hp hp'
  by_cases hk : k = j
  · subst hk
    rw [hq] at hp; cases hp
    exact hj p' (h4 k q1 p' (by simp [lt_of_getElem? hq]) hp')
  · exact hne k p p' hk (h4 k p p' (by rw [List.getElem?_set_ne (fun e => hk e.symm)]; exact hp) hp')

theorem set_same {recs : List Rec} {j : Nat} {q : Rec} (h : recs[j]? = some q) : recs.set j q = recs := by
  obtain ⟨hl, rfl⟩ := List.getElem?_eq_some_iff.mp h
  simp

theorem hdr_eq (q : Rec) : ([0x71, UInt8.ofNat q.name.length] ++ q.name : Bytes) = nameTlv q.name := rfl

/-- One record of CALCULATE ALL. -/
theorem calcOne_eff (hx : GoodHmac x) {o : OathFile} (ho : f.oath = some o) {j : Nat} {q : Rec}
    (hj : o.recs[j]? = some q) (hname : q.name ≠ []) (t : Bool) (c : Bytes) :
    wp A (calcOne x t j q c)
      (fun d f' r' => r' = r ∧ d = allEntry x t c q ∧ ∃ q', Passed A c q q' ∧
        f' = { f with oath := some { o with recs := o.recs.set j q' } })
      (fun e f' r' => e = .sw SW.security ∧ f' = f ∧ r' = r ∧ Active q ∧
        ¬ (c.length = 8 ∧ memcmpGt q.chal c = false))
      (fun f' _ => A .cut ∧ f' = f) f r := by
  have hsame : f = { f with oath := some { o with recs := o.recs.set j q } } := by
    rw [set_same hj]; cases f; simp at ho; simp [ho]
  simp only [calcOne, hdr_eq, Cmd.throw_bind, beq_iff_eq, bne_iff_ne, ne_eq]
  apply wp_ite
  · intro hh
    have hh : Hotp q := hh
    apply wp_pure
    exact ⟨rfl, by simp [allEntry, hname, hh], q, .inl ⟨fun h => h.2.1 hh, rfl⟩, hsame⟩
  · intro hh
    have hh : ¬ Hotp q := hh
    apply wp_ite
    · intro ht
      have ht : NeedsTouch q := ht
      apply wp_pure
      exact ⟨rfl, by simp [allEntry, hname, hh, ht], q, .inl ⟨fun h => h.2.2.1 ht, rfl⟩, hsame⟩
    · intro ht
      have ht : ¬ NeedsTouch q := ht
      have hd : nameTlv q.name ++ codeResp x t q c = allEntry x t c q := by
        simp [allEntry, hname, hh, ht]
      apply wp_bind
      apply wp_enforce ho hj
      · intro hi
        rw [if_neg (by simp)]
        apply wp_bind
        apply wp_mem (answer_eq hx _ _ _)
        exact wp_pure ⟨rfl, hd, q, .inl ⟨fun h => hi h.2.2.2, rfl⟩, hsame⟩
      · intro hi hno
        rw [if_pos (by simp)]
        exact wp_throw ⟨rfl, rfl, rfl, ⟨hname, hh, ht, hi⟩, hno⟩
      · intro hi hl hc
        rw [if_neg (by simp)]
        apply wp_bind
        apply wp_mem (answer_eq hx _ _ _)
        exact wp_pure ⟨rfl, hd, _, .inr ⟨⟨hname, hh, ht, hi⟩, hl, hc, .inl rfl⟩, rfl⟩
      · intro hi hl hc hfail
        rw [if_neg (by simp)]
        apply wp_bind
        apply wp_mem (answer_eq hx _ _ _)
        exact wp_pure ⟨rfl, hd, q, .inr ⟨⟨hname, hh, ht, hi⟩, hl, hc, .inr ⟨hfail, rfl⟩⟩, hsame⟩
      · intro h; exact ⟨h, rfl⟩

/-- How a finished page changed the records. -/
def PageRel (A : Fault → Prop) (c : Bytes) (a b : Nat) (k : Nat) (q q' : Rec) : Prop :=
  if a ≤ k ∧ k < b then Passed A c q q' else q' = q

theorem calcLoop_eff (hx : GoodHmac x) {o : OathFile} (ho : f.oath = some o) (le k : Nat) (out : Bytes)
    (hk : o.recs.length ≤ r.idx + k) :
    wp A (calcLoop x o.recs.length le k out)
      (fun p f' r' => ∃ j, r' = { r with idx := j } ∧ r.idx ≤ j ∧
        (r.idx ≤ o.recs.length → j ≤ o.recs.length) ∧
        p.1 = out ++ allSpan x (r.rem == .calcTrunc) (r.cBuf.take r.cLen) o.recs r.idx j ∧
        AllPost (PageRel A (r.cBuf.take r.cLen) r.idx j) f o f' ∧
        (p.2 = true → ∃ q, o.recs[j]? = some q ∧
          le < 5 + q.name.length + (if r.rem == .calcTrunc then 4 else 64) + p.1.length) ∧
        (p.2 = false → o.recs.length ≤ j))
      (fun e f' r' => (A .fail ∧ e = ioErr ∨ e = .sw SW.security) ∧
        AllPost (fun _ => AdvTo (r.cBuf.take r.cLen)) f o f' ∧ ∃ j, r' = { r with idx := j })
      (fun f' _ => A .cut ∧ AllPost (fun _ => AdvTo (r.cBuf.take r.cLen)) f o f') f r := by
  induction k generalizing out r f o with
  | zero =>
    simp only [calcLoop]
    apply wp_pure
    refine ⟨r.idx, rfl, Nat.le_refl _, fun h => h, by simp [allSpan], ?_, by simp, fun _ => by omega⟩
    exact AllPost.refl ho (fun k q => by simp [PageRel]; omega)
  | succ k ih =>
    have hrefl : AllPost (PageRel A (r.cBuf.take r.cLen) r.idx r.idx) f o f :=
      AllPost.refl ho (fun k q => by simp [PageRel]; omega)
    have hadv : AllPost (fun _ => AdvTo (r.cBuf.take r.cLen)) f o f :=
      AllPost.refl ho (fun k q => .inl rfl)
    simp only [calcLoop]
    apply wp_bind
    apply wp_get
    apply wp_ite
    · intro hlt
      apply wp_bind
      apply wp_readRec ho hlt
      · intro q hq
        apply wp_ite
        · intro hle
          apply wp_pure
          exact ⟨r.idx, rfl, Nat.le_refl _, fun h => h, by simp [allSpan], hrefl,
            fun _ => ⟨q, hq, by simp only at hle ⊢; omega⟩, by simp⟩
        · intro hle
          apply wp_bind
          apply wp_mod
          -- the rest of the loop, after record `r.idx`
          have hrec : ∀ out' f1 q1, out' = out ++ allEntry x (r.rem == .calcTrunc) (r.cBuf.take r.cLen) q →
              Passed A (r.cBuf.take r.cLen) q q1 →
              f1 = { f with oath := some { o with recs := o.recs.set r.idx q1 } } →
              wp A (calcLoop x o.recs.length le k out')
                (fun p f' r' => ∃ j, r' = { r with idx := j } ∧ r.idx ≤ j ∧
                  (r.idx ≤ o.recs.length → j ≤ o.recs.length) ∧
                  p.1 = out ++ allSpan x (r.rem == .calcTrunc) (r.cBuf.take r.cLen) o.recs r.idx j ∧
                  AllPost (PageRel A (r.cBuf.take r.cLen) r.idx j) f o f' ∧
                  (p.2 = true → ∃ q, o.recs[j]? = some q ∧
                    le < 5 + q.name.length + (if r.rem == .calcTrunc then 4 else 64) + p.1.length) ∧
                  (p.2 = false → o.recs.length ≤ j))
                (fun e f' r' => (A .fail ∧ e = ioErr ∨ e = .sw SW.security) ∧
                  AllPost (fun _ => AdvTo (r.cBuf.take r.cLen)) f o f' ∧ ∃ j, r' = { r with idx := j })
                (fun f' _ => A .cut ∧ AllPost (fun _ => AdvTo (r.cBuf.take r.cLen)) f o f')
                f1 { r with idx := r.idx + 1 } := by
            intro out' f1 q1 hout hpass hf1
            have ho1 : f1.oath = some { o with recs := o.recs.set r.idx q1 } := by rw [hf1]
            have hlen : ({ o with recs := o.recs.set r.idx q1 } : OathFile).recs.length = o.recs.length := by
              simp
            have := ih (r := { r with idx := r.idx + 1 }) ho1 out' (by rw [hlen]; simp only; omega)
            rw [hlen] at this
            refine wp_mono this ?_ ?_ ?_
            · rintro p f' r' ⟨j, hr, h1, h2, h3, h4, h5, h6⟩
              simp only at h1 h2 h3 h4 h5 h6 hr
              refine ⟨j, hr, by omega, fun _ => h2 (by omega), ?_, ?_, ?_, h6⟩
              · rw [h3, hout, List.append_assoc]
                congr 1
                simp only [allSpan]
                rw [drop_take_succ hq (by omega), List.flatMap_cons]
                congr 2
                rw [List.drop_set_of_lt (by omega)]
              · refine AllPost.step hq hf1 rfl h4 ?_ ?_
                · intro k p p' hk hp
                  simp only [PageRel] at hp ⊢
                  split at hp
                  · rw [if_pos (by omega)]; exact hp
                  · rw [if_neg (by omega)]; exact hp
                · intro q' hq'
                  simp only [PageRel] at hq' ⊢
                  rw [if_neg (by omega)] at hq'
                  rw [if_pos (by omega), hq']; exact hpass
              · intro hp
                obtain ⟨t, ht, hle'⟩ := h5 hp
                refine ⟨t, ?_, hle'⟩
                rw [List.getElem?_set_ne (by omega)] at ht; exact ht
            · rintro e f' r' ⟨h1, h2, j, h3⟩
              refine ⟨h1, AllPost.step hq hf1 rfl h2 (fun _ _ _ _ h => h) ?_, j, h3⟩
              rintro q' (rfl | ⟨ha, hl, hm, rfl⟩)
              · exact hpass.adv
              · rcases hpass.adv with rfl | ⟨ha', hl', hm', rfl⟩
                · exact .inr ⟨ha, hl, hm, rfl⟩
                · exact .inr ⟨ha', hl', hm', rfl⟩
            · rintro f' r' ⟨h1, h2⟩
              refine ⟨h1, AllPost.step hq hf1 rfl h2 (fun _ _ _ _ h => h) ?_⟩
              rintro q' (rfl | ⟨ha, hl, hm, rfl⟩)
              · exact hpass.adv
              · rcases hpass.adv with rfl | ⟨ha', hl', hm', rfl⟩
                · exact .inr ⟨ha, hl, hm, rfl⟩
                · exact .inr ⟨ha', hl', hm', rfl⟩
          apply wp_ite
          · intro hz
            have hz : q.name = [] := by simpa using hz
            apply hrec out f q (by simp [allEntry, hz]) (.inl ⟨fun h => h.1 hz, rfl⟩)
            rw [set_same hq]; cases f; simp at ho; simp [ho]
          · intro hz
            have hz : q.name ≠ [] := by simpa using hz
            apply wp_bind
            refine wp_mono (calcOne_eff hx ho hq hz _ _) ?_ ?_ ?_
            · rintro d f1 r1 ⟨rfl, rfl, q1, hp, hf1⟩
              exact hrec _ _ q1 rfl hp hf1
            · rintro e f1 r1 ⟨rfl, rfl, rfl, _⟩
              exact ⟨.inr rfl, hadv, _, rfl⟩
            · rintro f1 r1 ⟨h, rfl⟩
              exact ⟨h, hadv⟩
      · intro h; exact ⟨.inl ⟨h, rfl⟩, hadv, r.idx, rfl⟩
      · intro h; exact ⟨h, hadv⟩
    · intro hge
      apply wp_pure
      exact ⟨r.idx, rfl, Nat.le_refl _, fun h => h, by simp [allSpan], hrefl, by simp, fun _ => by omega⟩

/-- The statics of CALCULATE ALL that a call may set. -/
def CalcRam (r r' : Ram) : Prop :=
  r'.validated = r.validated ∧ r'.slot0 = r.slot0 ∧ r'.slot1 = r.slot1 ∧ r'.authChal = r.authChal

/-- The challenge of this call: stored by an earlier one, or in the command. -/
def AllChal (i : In) (r : Ram) (t : Rem) (c : Bytes) : Prop :=
  if r.idx = 0 then
    1 ≤ c.length ∧ c.length ≤ 8 ∧ (∃ rest, i.c.data = chalTlv c ++ rest) ∧
      t = (if i.c.p2 = 0 then .calcFull else .calcTrunc)
  else c = r.cBuf.take r.cLen ∧ t = r.rem

/-- The outcomes of CALCULATE ALL. -/
inductive AllEff (A : Fault → Prop) (x : Ext) (i : In) (f : Flash) (r : Ram) :
    Outcome Reply → Flash → Ram → Prop
  | bad (sw : SW) (h : sw ≠ SW.ok ∧ sw ≠ SW.more) (r' : Ram) (hr : CalcRam r r') (f' : Flash)
      (hf : f' = f ∨ ∃ o c, f.oath = some o ∧ AllPost (fun _ => AdvTo c) f o f') :
      AllEff A x i f r (.done (.sw sw)) f' r'
  | cut (h : A .cut) (f' : Flash) (r' : Ram)
      (hf : f' = f ∨ ∃ o c, f.oath = some o ∧ AllPost (fun _ => AdvTo c) f o f') :
      AllEff A x i f r .cut f' r'
  | page (o : OathFile) (ho : f.oath = some o) (c : Bytes) (t : Rem) (hc : AllChal i r t c)
      (j : Nat) (hj : r.idx ≤ j) (hn : r.idx ≤ o.recs.length → j ≤ o.recs.length) (f' : Flash)
      (hf : AllPost (PageRel A c r.idx j) f o f') (r' : Ram) (hr : CalcRam r r') (hi : r'.idx = j)
      (hrem : r'.rem = if o.recs.length ≤ j then .none else t)
      (hcb : r'.cBuf.take r'.cLen = c) (sw : SW)
      (hsw : (sw = SW.ok ∧ o.recs.length ≤ j) ∨ (sw = SW.more ∧ ∃ q, o.recs[j]? = some q ∧
        i.c.le < 5 + q.name.length + (if t == .calcTrunc then 4 else 64) +
          (allSpan x (t == .calcTrunc) c o.recs r.idx j).length)) :
      AllEff A x i f r (.done (.resp (allSpan x (t == .calcTrunc) c o.recs r.idx j) sw)) f' r'

theorem CalcRam.refl (r : Ram) : CalcRam r r := ⟨rfl, rfl, rfl, rfl⟩

/-- The body of CALCULATE ALL once the challenge is known. -/
theorem calculateAll_body (hx : GoodHmac x) {o : OathFile} (ho : f.oath = some o) (r1 : Ram)
    (c : Bytes) (t : Rem) (hc : AllChal i r t c) (h1 : r1.idx = r.idx) (h2 : r1.cBuf.take r1.cLen = c)
    (h3 : r1.rem = t) (hr1 : CalcRam r r1) :
    wp A (do
      let (out, more) ← calcLoop x o.recs.length i.c.le o.recs.length []
      let s ← Cmd.get
      if s.idx ≥ o.recs.length then Cmd.mod fun s => { s with rem := .none }
      return .resp out (if more then SW.more else SW.ok))
      (fun a => AllEff A x i f r (.done a)) (fun e => AllEff A x i f r (.done e))
      (AllEff A x i f r .cut) f r1 := by
  apply wp_bind
  refine wp_mono (calcLoop_eff hx (r := r1) ho i.c.le o.recs.length [] (by omega)) ?_ ?_ ?_
  · rintro ⟨out, more⟩ f' r' ⟨j, rfl, hj, hn, hout, hf, hm, hl⟩
    simp only [List.nil_append, h1, h2, h3] at hj hn hout hf hm hl
    subst hout
    obtain ⟨a1, a2, a3, a4⟩ := hr1
    apply wp_bind
    apply wp_get
    apply wp_ite
    · intro hge
      simp only at hge
      apply wp_bind
      apply wp_mod
      apply wp_pure
      cases more with
      | true => obtain ⟨q, hq, _⟩ := hm rfl; have := lt_of_getElem? hq; omega
      | false =>
        exact .page o ho c t hc j hj hn f' hf { r1 with idx := j, rem := .none } ⟨a1, a2, a3, a4⟩ rfl
          (by rw [if_pos hge]) h2 SW.ok
          (.inl ⟨rfl, hge⟩)
    · intro hge
      simp only at hge
      apply wp_pure
      cases more with
      | true =>
        obtain ⟨q, hq, hle⟩ := hm rfl
        exact .page o ho c t hc j hj hn f' hf { r1 with idx := j } ⟨a1, a2, a3, a4⟩ rfl
          (by rw [if_neg (by omega)]; exact h3) h2 SW.more (.inr ⟨rfl, q, hq, hle⟩)
      | false => exact absurd (hl rfl) (by omega)
  · rintro e f' r' ⟨he, hf, j, rfl⟩
    have hf' : f' = f ∨ ∃ o c, f.oath = some o ∧ AllPost (fun _ => AdvTo c) f o f' := .inr ⟨o, _, ho, hf⟩
    obtain ⟨a1, a2, a3, a4⟩ := hr1
    rcases he with ⟨_, rfl⟩ | rfl
    · exact .bad SW.unable (by decide) { r1 with idx := j } ⟨a1, a2, a3, a4⟩ f' hf'
    · exact .bad SW.security (by decide) { r1 with idx := j } ⟨a1, a2, a3, a4⟩ f' hf'
  · rintro f' r' ⟨h, hf⟩
    exact .cut h f' r' (.inr ⟨o, _, ho, hf⟩)

theorem calculateAll_eff (hx : GoodHmac x) :
    wp A (calculateAll x i) (fun a => AllEff A x i f r (.done a))
    (fun e => AllEff A x i f r (.done e)) (AllEff A x i f r .cut) f r := by
  simp only [calculateAll, Cmd.throw_bind]
  apply wp_ite
  · intro _; exact wp_throw (.bad _ (by decide) r (.refl r) f (.inl rfl))
  · intro _
    apply wp_bind
    apply wp_nRecords
    · intro o ho
      apply wp_bind
      apply wp_get
      apply wp_ite
      · intro h0
        have h0 : r.idx = 0 := by simpa using h0
        simp only [calcStart, Cmd.throw_bind]
        apply wp_bind
        apply wp_ite
        · intro _; exact wp_throw (.bad _ (by decide) r (.refl r) f (.inl rfl))
        · intro hlen
          obtain ⟨d0, d1, d2, hd⟩ : ∃ a b t, i.c.data = a :: b :: t := by
            match hd : i.c.data with
            | [] => rw [hd] at hlen; simp at hlen
            | [_] => rw [hd] at hlen; simp at hlen
            | a :: b :: t => exact ⟨a, b, t, rfl⟩
          apply wp_bind
          apply wp_mem (a := d0) (by rw [hd]; rfl)
          apply wp_ite
          · intro _; exact wp_throw (.bad _ (by decide) r (.refl r) f (.inl rfl))
          · intro ht
            have ht : d0 = 0x74 := by simpa using ht
            apply wp_bind
            apply wp_mem (a := d1) (by rw [hd]; rfl)
            apply wp_ite
            · intro _
              apply wp_bind
              apply wp_mod
              exact wp_throw (.bad (r := r) SW.wrongData (by decide) { r with cLen := 0 } ⟨rfl, rfl, rfl, rfl⟩ f (.inl rfl))
            · intro hcl
              have hcl : d1.toNat ≤ 8 ∧ 1 ≤ d1.toNat := by
                simp only [Bool.or_eq_true, decide_eq_true_eq, beq_iff_eq, not_or] at hcl
                refine ⟨byte_le.mp hcl.1, ?_⟩
                have := mt UInt8.toNat_inj.mp hcl.2
                rw [UInt8.toNat_zero] at this; omega
              apply wp_bind
              apply wp_mod
              apply wp_ite
              · intro _; exact wp_throw (.bad (r := r) SW.wrongLength (by decide) { r with cLen := d1.toNat } ⟨rfl, rfl, rfl, rfl⟩ f (.inl rfl))
              · intro hfit
                have hfit : d1.toNat ≤ d2.length := by rw [hd] at hfit; simp at hfit; omega
                apply wp_bind
                apply wp_mem (a := d2.take d1.toNat)
                  (by rw [hd, rdRange_ok (by simp; omega)]; rfl)
                apply wp_mod
                have hl : (d2.take d1.toNat).length = d1.toNat := by simp; omega
                apply calculateAll_body hx ho _ (d2.take d1.toNat)
                  (if i.c.p2 = 0 then .calcFull else .calcTrunc)
                · simp only [AllChal, h0, if_true]
                  refine ⟨by rw [hl]; omega, by rw [hl]; omega, ⟨d2.drop d1.toNat, ?_⟩, trivial⟩
                  rw [hd, ht]
                  simp only [chalTlv, hl, UInt8.ofNat_toNat]
                  simp
                · rfl
                · simp only
                  exact List.take_left' hl
                · simp only [bne_iff_ne, ne_eq]
                  by_cases hp : i.c.p2 = 0 <;> simp [hp]
                · exact ⟨rfl, rfl, rfl, rfl⟩
      · intro h0
        have h0 : ¬ r.idx = 0 := by simpa using h0
        apply calculateAll_body hx ho r (r.cBuf.take r.cLen) r.rem
        · simp [AllChal, h0]
        · rfl
        · rfl
        · rfl
        · exact .refl r
    · intro _; exact .bad _ (by decide) r (.refl r) f (.inl rfl)
    · intro h; exact .cut h f r (.inl rfl)

end Verif.Oath
