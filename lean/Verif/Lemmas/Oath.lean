import Verif.Lemmas.OathParse
set_option linter.unusedSimpArgs false
namespace Verif.Oath
open Verif.Spec.Oath Cmd

variable {A : Fault → Prop} {x : Ext} {i : In} {f : Flash} {r : Ram}

/-! ### Reading the record file -/

section
variable {α : Type} {E : Reply → Flash → Ram → Prop} {X : Flash → Ram → Prop}

/-- A read or write failed, or the file is missing. -/
def Io (A : Fault → Prop) (f : Flash) : Prop := f.oath = none ∨ A .fail

theorem wp_nRecords {Q : Nat → Flash → Ram → Prop}
    (hok : ∀ o, f.oath = some o → Q o.recs.length f r) (hio : Io A f → E ioErr f r)
    (hcut : A .cut → X f r) : wp A nRecords Q E X f r := by
  unfold nRecords
  apply wp_rdOr
  · intro a ha
    cases ho : f.oath with
    | none => rw [ho] at ha; cases ha
    | some o => rw [ho] at ha; cases ha; exact hok o ho
  · intro ha
    cases ho : f.oath with
    | none => exact hio (.inl ho)
    | some o => rw [ho] at ha; cases ha
  · intro h; exact hio (.inr h)
  · exact hcut

theorem wp_readRec {o : OathFile} (ho : f.oath = some o) {j : Nat} (hj : j < o.recs.length)
    {Q : Rec → Flash → Ram → Prop} (hok : ∀ q, o.recs[j]? = some q → Q q f r)
    (hio : A .fail → E ioErr f r) (hcut : A .cut → X f r) : wp A (readRec j) Q E X f r := by
  unfold readRec
  have hl : (f.oath.bind fun x => x.recs[j]?) = some o.recs[j] := by simp [ho, hj]
  apply wp_rdOr
  · intro a ha
    rw [hl] at ha
    exact hok a (by rw [← ha]; simp [hj])
  · intro ha; rw [hl] at ha; cases ha
  · exact hio
  · exact hcut

theorem wp_find {o : OathFile} (ho : f.oath = some o) {name : Bytes}
    {Q : Option (Nat × Rec) → Flash → Ram → Prop}
    (hnone : (∀ q ∈ o.recs, q.name ≠ name) → Q none f r)
    (hsome : ∀ j q, o.recs[j]? = some q → q.name = name → Q (some (j, q)) f r)
    (hio : A .fail → E ioErr f r) (hcut : A .cut → X f r) :
    wp A (find name 0 o.recs.length) Q E X f r := by
  have key : ∀ k j, j + k = o.recs.length → (∀ q ∈ o.recs.take j, q.name ≠ name) →
      wp A (find name j k) Q E X f r := by
    intro k
    induction k with
    | zero =>
      intro j hj hall
      rw [show j = o.recs.length by omega, List.take_length] at hall
      exact wp_pure (hnone hall)
    | succ k ih =>
      intro j hj hall
      simp only [find, Cmd.pure_bind]
      apply wp_bind
      apply wp_readRec ho (by omega)
      · intro q hq
        apply wp_ite
        · intro h; exact wp_pure (hsome j q hq (by simpa using h))
        · intro h
          apply ih (j + 1) (by omega)
          intro p hp
          rw [List.take_add_one, List.mem_append, hq] at hp
          rcases hp with hp | hp
          · exact hall p hp
          · simp at hp; subst hp; simpa using h
      · exact hio
      · exact hcut
  exact key _ 0 (by omega) (by simp)

/-- A slot where PUT may store a new record. -/
def Free (recs : List Rec) (u : Nat) : Prop :=
  (u = recs.length ∧ (∀ q ∈ recs, q.name ≠ [])) ∨ (∃ q, recs[u]? = some q ∧ q.name = [])

theorem wp_putScan {o : OathFile} (ho : f.oath = some o) {name : Bytes}
    {Q : Nat → Flash → Ram → Prop}
    (hok : ∀ u, (∀ q ∈ o.recs, q.name ≠ name) → Free o.recs u → Q u f r)
    (hdup : (∃ q ∈ o.recs, q.name = name) → E (.sw SW.conditions) f r)
    (hio : A .fail → E ioErr f r) (hcut : A .cut → X f r) :
    wp A (putScan name o.recs.length 0 o.recs.length o.recs.length) Q E X f r := by
  have key : ∀ k j u, j + k = o.recs.length → (∀ q ∈ o.recs.take j, q.name ≠ name) →
      ((u = o.recs.length ∧ ∀ q ∈ o.recs.take j, q.name ≠ []) ∨
        (∃ q, o.recs[u]? = some q ∧ q.name = [])) →
      wp A (putScan name o.recs.length j u k) Q E X f r := by
    intro k
    induction k with
    | zero =>
      intro j u hj hall hu
      rw [show j = o.recs.length by omega, List.take_length] at hall hu
      exact wp_pure (hok u hall hu)
    | succ k ih =>
      intro j u hj hall hu
      simp only [putScan, Cmd.throw_bind]
      apply wp_bind
      apply wp_readRec ho (by omega)
      · intro q hq
        apply wp_ite
        · intro h
          exact wp_throw (hdup ⟨q, List.mem_of_getElem? hq, by simpa using h⟩)
        · intro h
          apply ih (j + 1) _ (by omega)
          · intro p hp
            rw [List.take_add_one, List.mem_append, hq] at hp
            rcases hp with hp | hp
            · exact hall p hp
            · simp at hp; subst hp; simpa using h
          · by_cases hz : q.name = []
            · rcases hu with ⟨rfl, _⟩ | ⟨q', hq', hz'⟩
              · rw [if_pos (by simp [hz])]; exact .inr ⟨q, hq, hz⟩
              · have hlt : u < o.recs.length := by
                  rw [List.getElem?_eq_some_iff] at hq'; exact hq'.1
                rw [if_neg (by simp; intro _; omega)]; exact .inr ⟨q', hq', hz'⟩
            · rw [if_neg (by simp [hz])]
              rcases hu with ⟨rfl, h2⟩ | h2
              · refine .inl ⟨rfl, ?_⟩
                intro p hp
                rw [List.take_add_one, List.mem_append, hq] at hp
                rcases hp with hp | hp
                · exact h2 p hp
                · simp at hp; subst hp; exact hz
              · exact .inr h2
      · exact hio
      · exact hcut
  exact key _ 0 _ (by omega) (by simp) (.inl ⟨rfl, by simp⟩)

theorem wp_renameScan {o : OathFile} (ho : f.oath = some o) {old new : Bytes}
    {Q : Nat → Flash → Ram → Prop}
    (hnone : (∀ q ∈ o.recs, q.name ≠ new) → (∀ q ∈ o.recs, q.name ≠ old) → Q o.recs.length f r)
    (hok : ∀ j q, (∀ q ∈ o.recs, q.name ≠ new) → o.recs[j]? = some q → q.name = old → Q j f r)
    (hdup : (∃ q ∈ o.recs, q.name = new) → E (.sw SW.conditions) f r)
    (hio : A .fail → E ioErr f r) (hcut : A .cut → X f r) :
    wp A (renameScan old new o.recs.length 0 o.recs.length o.recs.length) Q E X f r := by
  have key : ∀ k j u, j + k = o.recs.length → (∀ q ∈ o.recs.take j, q.name ≠ new) →
      ((u = o.recs.length ∧ ∀ q ∈ o.recs.take j, q.name ≠ old) ∨
        (∃ q, o.recs[u]? = some q ∧ q.name = old)) →
      wp A (renameScan old new o.recs.length j u k) Q E X f r := by
    intro k
    induction k with
    | zero =>
      intro j u hj hall hu
      rw [show j = o.recs.length by omega, List.take_length] at hall hu
      apply wp_pure
      rcases hu with ⟨rfl, hu⟩ | ⟨q, hq, hn⟩
      · exact hnone hall hu
      · exact hok u q hall hq hn
    | succ k ih =>
      intro j u hj hall hu
      simp only [renameScan, Cmd.throw_bind]
      apply wp_bind
      apply wp_readRec ho (by omega)
      · intro q hq
        apply wp_ite
        · intro h
          exact wp_throw (hdup ⟨q, List.mem_of_getElem? hq, by simpa using h⟩)
        · intro h
          apply ih (j + 1) _ (by omega)
          · intro p hp
            rw [List.take_add_one, List.mem_append, hq] at hp
            rcases hp with hp | hp
            · exact hall p hp
            · simp at hp; subst hp; simpa using h
          · by_cases hz : q.name = old
            · rcases hu with ⟨rfl, _⟩ | ⟨q', hq', hz'⟩
              · rw [if_pos (by simp [hz])]; exact .inr ⟨q, hq, hz⟩
              · have hlt : u < o.recs.length := by
                  rw [List.getElem?_eq_some_iff] at hq'; exact hq'.1
                rw [if_neg (by simp; intro _; omega)]; exact .inr ⟨q', hq', hz'⟩
            · rw [if_neg (by simp [hz])]
              rcases hu with ⟨rfl, h2⟩ | h2
              · refine .inl ⟨rfl, ?_⟩
                intro p hp
                rw [List.take_add_one, List.mem_append, hq] at hp
                rcases hp with hp | hp
                · exact h2 p hp
                · simp at hp; subst hp; exact hz
              · exact .inr h2
      · exact hio
      · exact hcut
  exact key _ 0 _ (by omega) (by simp) (.inl ⟨rfl, by simp⟩)

theorem wp_updRec {o : OathFile} (ho : f.oath = some o) {j : Nat} {q : Rec}
    {Q : Unit → Flash → Ram → Prop}
    (hok : Q () { f with oath := some { o with recs := putRec o.recs j q } } r)
    (hio : A .fail → E ioErr f r) (hcut : A .cut → X f r) :
    wp A (wrOr (updRec j q) ioErr) Q E X f r := by
  apply wp_wrOr
  · intro f' hf
    simp only [updRec, ho, Option.map_some, Option.some.injEq] at hf
    subst hf; exact hok
  · intro hf; simp [updRec, ho] at hf
  · exact hio
  · exact hcut

end

/-! ### Commands -/

/-- The outcomes of PUT. -/
inductive PutEff (A : Fault → Prop) (i : In) (f : Flash) (r : Ram) :
    Outcome Reply → Flash → Ram → Prop
  | bad (sw : SW) (h : sw ≠ SW.ok)
      (hw : (i.c.p1 ≠ 0 ∨ i.c.p2 ≠ 0) ∨ ∀ q p c, ¬ PutReq i.c.data q p c) :
      PutEff A i f r (.done (.sw sw)) f r
  | io (h : Io A f) : PutEff A i f r (.done ioErr) f r
  | cut (h : A .cut) : PutEff A i f r .cut f r
  | dup (o : OathFile) (q : Rec) (p c : Bytes) (ho : f.oath = some o) (hq : PutReq i.c.data q p c)
      (hd : ∃ t ∈ o.recs, t.name = q.name) : PutEff A i f r (.done (.sw SW.conditions)) f r
  | full (o : OathFile) (q : Rec) (p c : Bytes) (ho : f.oath = some o) (hq : PutReq i.c.data q p c)
      (hn : ∀ t ∈ o.recs, t.name ≠ q.name) (he : ∀ t ∈ o.recs, t.name ≠ [])
      (hl : 100 ≤ o.recs.length) : PutEff A i f r (.done (.sw SW.noSpace)) f r
  | done (o : OathFile) (q : Rec) (p c : Bytes) (u : Nat) (h12 : i.c.p1 = 0 ∧ i.c.p2 = 0)
      (ho : f.oath = some o) (hq : PutReq i.c.data q p c)
      (hn : ∀ t ∈ o.recs, t.name ≠ q.name) (hu : Free o.recs u) (hl : u < 100 ∨ u < o.recs.length) :
      PutEff A i f r (.done (.sw SW.ok))
        { f with oath := some { o with recs := putRec o.recs u q } } r

theorem p12_neg {a b : Byte} (h : ¬ (a != 0 || b != 0) = true) : a = 0 ∧ b = 0 := by
  simpa using h
theorem p12_pos {a b : Byte} (h : (a != 0 || b != 0) = true) : a ≠ 0 ∨ b ≠ 0 := by
  simpa using h

theorem put_eff : wp A (put i) (fun a => PutEff A i f r (.done a)) (fun e => PutEff A i f r (.done e))
    (PutEff A i f r .cut) f r := by
  simp only [put, Cmd.throw_bind]
  apply wp_ite
  · intro h; exact wp_throw (.bad _ (by decide) (.inl (p12_pos h)))
  · intro h12
    have h12 := p12_neg h12
    apply wp_bind
    apply wp_parse (parsePut_safe _)
    · intro q hq _
      obtain ⟨p, c, hq⟩ := (parsePut_ok _ _).mp hq
      apply wp_bind
      apply wp_nRecords
      · intro o ho
        apply wp_bind
        apply wp_putScan ho
        · intro u hn hu
          apply wp_ite
          · intro h
            simp only [Bool.and_eq_true, beq_iff_eq, decide_eq_true_eq] at h; unfold maxRecords at h
            apply wp_throw
            rcases hu with ⟨_, he⟩ | ⟨t, ht, _⟩
            · exact .full o q p c ho hq hn he (by omega)
            · rw [List.getElem?_eq_some_iff] at ht
              have := ht.1; omega
          · intro h
            simp only [Bool.and_eq_true, beq_iff_eq, decide_eq_true_eq] at h; unfold maxRecords at h
            apply wp_bind
            apply wp_updRec ho
            · apply wp_pure
              refine .done o q p c u h12 ho hq hn hu ?_
              rcases hu with ⟨hu, _⟩ | ⟨t, ht, _⟩
              · exact .inl (by omega)
              · rw [List.getElem?_eq_some_iff] at ht; exact .inr ht.1
            · intro h; exact .io (.inr h)
            · exact .cut
        · intro hd; exact .dup o q p c ho hq hd
        · intro h; exact .io (.inr h)
        · exact .cut
      · exact .io
      · exact .cut
    · intro sw hsw
      refine .bad sw (parsePut_throws _ sw hsw) (.inr ?_)
      intro q p c hq
      have := (parsePut_ok _ _).mpr ⟨p, c, hq⟩
      unfold PE.Ok at this
      rw [hsw] at this; cases this

/-- A slot refers to the record at a file offset. -/
def Slot.Refers (s : Slot) (off : Nat) : Prop := ∃ n e, s = .oath off n e

instance (s : Slot) (off : Nat) : Decidable (s.Refers off) :=
  match s with
  | .off => isFalse (by rintro ⟨_, _, h⟩; cases h)
  | .static .. => isFalse (by rintro ⟨_, _, h⟩; cases h)
  | .oath o n e => if h : o = off then isTrue ⟨n, e, by rw [h]⟩ else
      isFalse (by rintro ⟨_, _, h'⟩; cases h'; exact h rfl)

/-- What `pass_delete_oath` does to the slots. -/
inductive PassDel (off : Nat) (r : Ram) : Ram → Bool → Prop
  | none (h0 : ¬ r.slot0.Refers off) (h1 : ¬ r.slot1.Refers off) : PassDel off r r false
  | first (h0 : r.slot0.Refers off) : PassDel off r { r with slot0 := .off } true
  | second (h0 : ¬ r.slot0.Refers off) (h1 : r.slot1.Refers off) :
      PassDel off r { r with slot1 := .off } true

/-- Flash after `pass_delete_oath`. -/
def passFlash (wrote : Bool) (f : Flash) (r' : Ram) : Flash :=
  if wrote then { f with pass := some (r'.slot0, r'.slot1) } else f

theorem passDeleteOath_eff {off : Nat} {Q : Unit → Flash → Ram → Prop}
    {E : Reply → Flash → Ram → Prop} {X : Flash → Ram → Prop}
    (hok : ∀ r' w, PassDel off r r' w → Q () (passFlash w f r') r')
    (hio : ∀ r', A .fail → PassDel off r r' true → E ioErr f r')
    (hcut : ∀ r', A .cut → X f r') : wp A (passDeleteOath off) Q E X f r := by
  have hit : ∀ s : Slot, s.hits off = decide (s.Refers off) := by
    intro s
    cases s with
    | off => simp [Slot.hits, Slot.Refers]
    | static => simp [Slot.hits, Slot.Refers]
    | oath o n e =>
      by_cases h : o = off
      · have : (Slot.oath o n e).Refers off := ⟨n, e, by rw [h]⟩
        simp [Slot.hits, h, this] at this ⊢; exact this
      · have : ¬ (Slot.oath o n e).Refers off := by rintro ⟨_, _, h'⟩; cases h'; exact h rfl
        simp [Slot.hits, h, this]
  unfold passDeleteOath
  apply wp_bind
  apply wp_get
  simp only [hit]
  have hwr : ∀ r', PassDel off r r' true → wp A (do
      let r ← Cmd.get
      Cmd.wrOr (updPass r) ioErr) Q E X f r' := by
    intro r' h'
    apply wp_bind
    apply wp_get
    apply wp_wrOr
    · intro f' hf; cases hf; exact hok r' true h'
    · intro hf; cases hf
    · intro h; exact hio r' h h'
    · exact hcut r'
  apply wp_ite
  · intro h
    apply wp_bind
    apply wp_mod
    exact hwr _ (.first (by simpa using h))
  · intro h
    apply wp_ite
    · intro h1
      apply wp_bind
      apply wp_mod
      exact hwr _ (.second (by simpa using h) (by simpa using h1))
    · intro h1
      exact wp_pure (hok r false (.none (by simpa using h) (by simpa using h1)))

/-- The outcomes of DELETE. The first write may have switched a touch slot off even if the second
did not happen. -/
inductive DelEff (A : Fault → Prop) (i : In) (f : Flash) (r : Ram) :
    Outcome Reply → Flash → Ram → Prop
  | bad (sw : SW) (h : sw ≠ SW.ok) (hw : (i.c.p1 ≠ 0 ∨ i.c.p2 ≠ 0) ∨ ∀ n, ¬ NameReq i.c.data n) :
      DelEff A i f r (.done (.sw sw)) f r
  | io (h : Io A f) (r' : Ram) (f' : Flash) (hf : f'.oath = f.oath)
      (hr : r' = r ∨ ∃ off w, PassDel off r r' w) : DelEff A i f r (.done ioErr) f' r'
  | cut (h : A .cut) (r' : Ram) (f' : Flash) (hf : f'.oath = f.oath) : DelEff A i f r .cut f' r'
  | missing (o : OathFile) (n : Bytes) (ho : f.oath = some o) (hq : NameReq i.c.data n)
      (hn : ∀ t ∈ o.recs, t.name ≠ n) : DelEff A i f r (.done (.sw SW.dataInvalid)) f r
  | done (o : OathFile) (n : Bytes) (j : Nat) (q : Rec) (h12 : i.c.p1 = 0 ∧ i.c.p2 = 0)
      (ho : f.oath = some o) (hq : NameReq i.c.data n) (hj : o.recs[j]? = some q) (hn : q.name = n)
      (r' : Ram) (w : Bool) (hp : PassDel (j * recSize) r r' w) :
      DelEff A i f r (.done (.sw SW.ok))
        { passFlash w f r' with oath := some { o with recs := o.recs.set j { q with name := [] } } } r'

theorem passFlash_oath (w : Bool) (f : Flash) (r : Ram) : (passFlash w f r).oath = f.oath := by
  cases w <;> rfl

theorem putRec_lt {recs : List Rec} {j : Nat} {q : Rec} (h : j < recs.length) :
    putRec recs j q = recs.set j q := by simp [putRec, h]

theorem not_ok_of_err {α : Type} {p : PE SW α} {sw : SW} {a : α} (h : p.run = .ok (.error sw)) :
    ¬ PE.Ok p a := by
  intro h'; unfold PE.Ok at h'; rw [h] at h'; cases h'

theorem lt_of_getElem? {α : Type} {l : List α} {j : Nat} {q : α} (h : l[j]? = some q) :
    j < l.length := (List.getElem?_eq_some_iff.mp h).1

theorem delete_eff : wp A (delete i) (fun a => DelEff A i f r (.done a))
    (fun e => DelEff A i f r (.done e)) (DelEff A i f r .cut) f r := by
  simp only [delete, Cmd.throw_bind]
  apply wp_ite
  · intro h; exact wp_throw (.bad _ (by decide) (.inl (p12_pos h)))
  · intro h12
    have h12 := p12_neg h12
    apply wp_bind
    apply wp_parse (parseName_safe _)
    · intro n hn _
      have hq := (parseName_ok _ _).mp hn
      apply wp_bind
      apply wp_nRecords
      · intro o ho
        apply wp_bind
        apply wp_find ho
        · intro hn; exact wp_throw (.missing o n ho hq hn)
        · intro j q hj hjn
          apply wp_bind
          apply passDeleteOath_eff
          · intro r' w hp
            apply wp_bind
            apply wp_updRec (o := o) (by rw [passFlash_oath]; exact ho)
            · apply wp_pure
              rw [putRec_lt (lt_of_getElem? hj)]
              exact .done o n j q h12 ho hq hj hjn r' w hp
            · intro h; exact .io (.inr h) r' _ (passFlash_oath ..) (.inr ⟨_, w, hp⟩)
            · intro h; exact .cut h r' _ (passFlash_oath ..)
          · intro r' h hp; exact .io (.inr h) r' f rfl (.inr ⟨_, _, hp⟩)
          · intro r' h; exact .cut h r' f rfl
        · intro h; exact .io (.inr h) r f rfl (.inl rfl)
        · intro h; exact .cut h r f rfl
      · intro h; exact .io h r f rfl (.inl rfl)
      · intro h; exact .cut h r f rfl
    · intro sw hsw
      refine .bad sw (parseName_throws _ sw hsw) (.inr ?_)
      intro n hn
      exact not_ok_of_err hsw ((parseName_ok _ _).mpr hn)

/-- The outcomes of RENAME. -/
inductive RenEff (A : Fault → Prop) (i : In) (f : Flash) (r : Ram) :
    Outcome Reply → Flash → Ram → Prop
  | bad (sw : SW) (h : sw ≠ SW.ok)
      (hw : (i.c.p1 ≠ 0 ∨ i.c.p2 ≠ 0) ∨ ∀ a b, ¬ RenameReq i.c.data a b) :
      RenEff A i f r (.done (.sw sw)) f r
  | io (h : Io A f) : RenEff A i f r (.done ioErr) f r
  | cut (h : A .cut) : RenEff A i f r .cut f r
  | dup (o : OathFile) (a b : Bytes) (ho : f.oath = some o) (hq : RenameReq i.c.data a b)
      (hd : ∃ t ∈ o.recs, t.name = b) : RenEff A i f r (.done (.sw SW.conditions)) f r
  | missing (o : OathFile) (a b : Bytes) (ho : f.oath = some o) (hq : RenameReq i.c.data a b)
      (hn : ∀ t ∈ o.recs, t.name ≠ b) (hm : ∀ t ∈ o.recs, t.name ≠ a) :
      RenEff A i f r (.done (.sw SW.dataInvalid)) f r
  | done (o : OathFile) (a b : Bytes) (j : Nat) (q : Rec) (h12 : i.c.p1 = 0 ∧ i.c.p2 = 0)
      (ho : f.oath = some o) (hq : RenameReq i.c.data a b)
      (hn : ∀ t ∈ o.recs, t.name ≠ b) (hj : o.recs[j]? = some q) (ha : q.name = a) :
      RenEff A i f r (.done (.sw SW.ok))
        { f with oath := some { o with recs := o.recs.set j { q with name := b } } } r

theorem rename_eff : wp A (rename i) (fun a => RenEff A i f r (.done a))
    (fun e => RenEff A i f r (.done e)) (RenEff A i f r .cut) f r := by
  simp only [rename, Cmd.throw_bind]
  apply wp_ite
  · intro h; exact wp_throw (.bad _ (by decide) (.inl (p12_pos h)))
  · intro h12
    have h12 := p12_neg h12
    apply wp_bind
    apply wp_parse (parseRename_safe _)
    · rintro ⟨a, b⟩ hn _
      have hq := (parseRename_ok _ _ _).mp hn
      apply wp_bind
      apply wp_nRecords
      · intro o ho
        apply wp_bind
        apply wp_renameScan ho
        · intro hb ha
          rw [if_pos (by simp)]
          exact wp_throw (.missing o a b ho hq hb ha)
        · intro j q hb hj hja
          rw [if_neg (by have := lt_of_getElem? hj; simp; omega)]
          apply wp_bind
          apply wp_readRec ho (lt_of_getElem? hj)
          · intro q' hq'
            rw [hj] at hq'; cases hq'
            apply wp_bind
            apply wp_updRec ho
            · apply wp_pure
              rw [putRec_lt (lt_of_getElem? hj)]
              exact .done o a b j q h12 ho hq hb hj hja
            · intro h; exact .io (.inr h)
            · exact .cut
          · intro h; exact .io (.inr h)
          · exact .cut
        · intro hd; exact .dup o a b ho hq hd
        · intro h; exact .io (.inr h)
        · exact .cut
      · exact .io
      · exact .cut
    · intro sw hsw
      refine .bad sw (parseRename_throws _ sw hsw) (.inr ?_)
      intro a b hn
      exact not_ok_of_err hsw ((parseRename_ok _ _ _).mpr hn)

end Verif.Oath
