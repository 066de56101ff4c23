import Verif.Lemmas.Oath
import Verif.Lemmas.OathNum
set_option linter.unusedSimpArgs false
namespace Verif.Oath
open Verif.Spec.Oath Cmd

variable {A : Fault → Prop} {x : Ext} {i : In} {f : Flash} {r : Ram}

/-- Flash with the moving factor of record `j` replaced. -/
def setChal (f : Flash) (o : OathFile) (j : Nat) (q : Rec) (c : Bytes) : Flash :=
  { f with oath := some { o with recs := o.recs.set j { q with chal := c } } }

theorem modify_eq {recs : List Rec} {j : Nat} {q : Rec} (h : recs[j]? = some q) (g : Rec → Rec) :
    recs.modify j g = recs.set j (g q) := by
  obtain ⟨hl, rfl⟩ := List.getElem?_eq_some_iff.mp h
  apply List.ext_getElem?
  intro k
  rw [List.getElem?_modify, List.getElem?_set]
  by_cases hk : j = k
  · subst hk; simp [hl]
  · simp [hk]

section
variable {E : Reply → Flash → Ram → Prop} {X : Flash → Ram → Prop}

/-- Writing the moving factor back, with the result ignored. -/
theorem wp_updChal {o : OathFile} (ho : f.oath = some o) {j : Nat} {q : Rec}
    (hj : o.recs[j]? = some q) {c : Bytes} {Q : Bool → Flash → Ram → Prop}
    (hok : ∀ b, Q b (setChal f o j q c) r) (hio : A .fail → ∀ b, Q b f r) (hcut : A .cut → X f r) :
    wp A (Cmd.wrF (updChal j c)) Q E X f r := by
  apply wp_wrF
  · intro _ f' hf
    simp only [updChal, ho, Option.map_some, Option.some.injEq, modify_eq hj] at hf
    subst hf; exact hok _
  · intro _ hf; simp [updChal, ho] at hf
  · intro h; exact hio h _
  · exact hcut

theorem wp_mem {α : Type} {m : C α} {a : α} (h : m = .ok a) {Q : α → Flash → Ram → Prop}
    (hQ : Q a f r) : wp A (Cmd.mem m) Q E X f r := by
  unfold Cmd.mem; rw [h]; exact wp_pure hQ

end

/-- What CALCULATE requires of a TOTP challenge. -/
def ChalOk (q : Rec) (c : Bytes) : Prop := IncOnly q → c.length = 8 ∧ memcmpGt q.chal c = false

theorem wp_enforce {E : Reply → Flash → Ram → Prop} {X : Flash → Ram → Prop}
    {o : OathFile} (ho : f.oath = some o) {j : Nat} {q : Rec}
    (hj : o.recs[j]? = some q) {c : Bytes} {Q : Bool → Flash → Ram → Prop}
    (hfree : ¬ IncOnly q → Q true f r)
    (hbad : IncOnly q → ¬ (c.length = 8 ∧ memcmpGt q.chal c = false) → Q false f r)
    (hok : IncOnly q → c.length = 8 → memcmpGt q.chal c = false → Q true (setChal f o j q c) r)
    (hio : IncOnly q → c.length = 8 → memcmpGt q.chal c = false → A .fail → Q true f r)
    (hcut : A .cut → X f r) :
    wp A (enforceIncreasing j q c) Q E X f r := by
  unfold enforceIncreasing
  simp only [bne_iff_ne, ne_eq]
  apply wp_ite
  · intro hp
    have hp : IncOnly q := hp
    apply wp_ite
    · intro h; exact wp_pure (hbad hp (fun h' => h h'.1))
    · intro h8
      have h8 : c.length = 8 := Decidable.not_not.mp h8
      apply wp_ite
      · intro h; exact wp_pure (hbad hp (fun h' => by rw [h'.2] at h; cases h))
      · intro h
        have h : memcmpGt q.chal c = false := by simpa using h
        apply wp_bind
        apply wp_updChal ho hj
        · intro b; exact wp_pure (hok hp h8 h)
        · intro hf b; exact wp_pure (hio hp h8 h hf)
        · exact hcut
  · intro hp
    exact wp_pure (hfree hp)

/-- Why CALCULATE refuses. -/
inductive CalcBad (A : Fault → Prop) (i : In) (f : Flash) : SW → Prop
  | p12 (h : i.c.p1 ≠ 0 ∨ (i.c.p2 ≠ 0 ∧ i.c.p2 ≠ 1)) : CalcBad A i f SW.wrongP1P2
  | io (h : Io A f) : CalcBad A i f SW.unable
  | noName (sw : SW) (hs : sw ≠ SW.ok) (h : ∀ n, ¬ NameReq i.c.data n) : CalcBad A i f sw
  | missing (o : OathFile) (n : Bytes) (ho : f.oath = some o) (hq : NameReq i.c.data n)
      (h : ∀ t ∈ o.recs, t.name ≠ n) : CalcBad A i f SW.dataInvalid
  | touch (o : OathFile) (n : Bytes) (j : Nat) (q : Rec) (ho : f.oath = some o)
      (hq : NameReq i.c.data n) (hj : o.recs[j]? = some q) (hn : q.name = n) (ht : NeedsTouch q)
      (h1 : i.nfc = false) (h2 : i.touch = false) : CalcBad A i f SW.security
  | noChal (o : OathFile) (n : Bytes) (j : Nat) (q : Rec) (ho : f.oath = some o)
      (hq : NameReq i.c.data n) (hj : o.recs[j]? = some q) (hn : q.name = n) (ht : Totp q)
      (htouch : NeedsTouch q → i.nfc = true ∨ i.touch = true)
      (sw : SW) (hs : sw ≠ SW.ok) (h : ∀ c, ¬ CalcReq i.c.data n c) : CalcBad A i f sw
  | old (o : OathFile) (n c : Bytes) (j : Nat) (q : Rec) (ho : f.oath = some o)
      (hq : CalcReq i.c.data n c) (hj : o.recs[j]? = some q) (hn : q.name = n) (ht : Totp q)
      (hi : IncOnly q) (h : ¬ (c.length = 8 ∧ memcmpGt q.chal c = false)) : CalcBad A i f SW.security
  | max (o : OathFile) (n : Bytes) (j : Nat) (q : Rec) (ho : f.oath = some o)
      (hq : NameReq i.c.data n) (hj : o.recs[j]? = some q) (hn : q.name = n) (ht : Hotp q)
      (htouch : NeedsTouch q → i.nfc = true ∨ i.touch = true)
      (h : increaseCounter q.chal = none) : CalcBad A i f SW.conditions
  | type (o : OathFile) (n : Bytes) (j : Nat) (q : Rec) (ho : f.oath = some o)
      (hq : NameReq i.c.data n) (hj : o.recs[j]? = some q) (hn : q.name = n) (ht : ¬ Totp q)
      (hh : ¬ Hotp q) : CalcBad A i f SW.unable

theorem CalcBad.ne_ok {A : Fault → Prop} {i : In} {f : Flash} {sw : SW} (h : CalcBad A i f sw) :
    sw ≠ SW.ok := by
  cases h <;> first | assumption | decide

/-- The outcomes of CALCULATE. -/
inductive CalcEff (A : Fault → Prop) (x : Ext) (i : In) (f : Flash) (r : Ram) :
    Outcome Reply → Flash → Ram → Prop
  | bad (sw : SW) (h : CalcBad A i f sw) : CalcEff A x i f r (.done (.sw sw)) f r
  | cut (h : A .cut) : CalcEff A x i f r .cut f r
  | totp (o : OathFile) (n c : Bytes) (j : Nat) (q : Rec) (ho : f.oath = some o)
      (hq : CalcReq i.c.data n c) (hj : o.recs[j]? = some q) (hn : q.name = n) (ht : Totp q)
      (htouch : NeedsTouch q → i.nfc = true ∨ i.touch = true) (hi : ¬ IncOnly q) :
      CalcEff A x i f r (.done (.resp (codeResp x (i.c.p2 != 0) q c) SW.ok)) f r
  | totpInc (o : OathFile) (n c : Bytes) (j : Nat) (q : Rec) (ho : f.oath = some o)
      (hq : CalcReq i.c.data n c) (hj : o.recs[j]? = some q) (hn : q.name = n) (ht : Totp q)
      (htouch : NeedsTouch q → i.nfc = true ∨ i.touch = true)
      (hi : IncOnly q) (hl : c.length = 8) (hc : memcmpGt q.chal c = false) (f' : Flash)
      (hf : f' = setChal f o j q c ∨ (A .fail ∧ f' = f)) :
      CalcEff A x i f r (.done (.resp (codeResp x (i.c.p2 != 0) q c) SW.ok)) f' r
  | hotp (o : OathFile) (n c : Bytes) (j : Nat) (q : Rec) (ho : f.oath = some o)
      (hq : NameReq i.c.data n) (hj : o.recs[j]? = some q) (hn : q.name = n) (ht : Hotp q)
      (htouch : NeedsTouch q → i.nfc = true ∨ i.touch = true)
      (hc : increaseCounter q.chal = some c) (f' : Flash)
      (hf : f' = setChal f o j q c ∨ (A .fail ∧ f' = f)) :
      CalcEff A x i f r (.done (.resp (codeResp x (i.c.p2 != 0) q c) SW.ok)) f' r

theorem calcReq_of {d n c : Bytes} {off : Nat} (hq : NameReq d n) (ho : off = 2 + n.length)
    (hc : PE.Ok (parseChal d off) c) : CalcReq d n c := by
  obtain ⟨hv, rest, rfl⟩ := hq
  obtain ⟨h1, h2, rest', h3⟩ := (parseChal_ok _ _ _).mp hc
  refine ⟨hv, h1, h2, rest', ?_⟩
  have hd : (nameTlv n ++ rest).drop off = rest := by
    subst ho
    exact List.drop_left' (by simp [nameTlv]; omega)
  rw [hd] at h3; rw [h3]

theorem nameReq_unique {d n m : Bytes} (h : NameReq d n) (h' : NameReq d m) : n = m := by
  have h1 := (parseName_ok _ _).mpr h
  have h2 := (parseName_ok _ _).mpr h'
  unfold PE.Ok at h1 h2
  rw [h1] at h2; cases h2; rfl

theorem nameReq_of_calc {d n c : Bytes} (h : CalcReq d n c) : NameReq d n := by
  obtain ⟨hv, _, _, rest, h⟩ := h
  exact ⟨hv, _, h⟩

theorem parseChal_of_calcReq {d n c : Bytes} {off : Nat} (hq : NameReq d n) (ho : off = 2 + n.length)
    (hc : CalcReq d n c) : PE.Ok (parseChal d off) c := by
  obtain ⟨_, h1, h2, rest, rfl⟩ := hc
  rw [parseChal_ok]
  refine ⟨h1, h2, rest, ?_⟩
  subst ho
  exact List.drop_left' (by simp [nameTlv]; omega)

theorem calculate_eff (hx : GoodHmac x) : wp A (calculate x i) (fun a => CalcEff A x i f r (.done a))
    (fun e => CalcEff A x i f r (.done e)) (CalcEff A x i f r .cut) f r := by
  simp only [calculate, Cmd.throw_bind]
  apply wp_ite
  · intro h; exact wp_throw (.bad _ (.p12 (by simpa using h)))
  · intro _
    apply wp_bind
    apply wp_parse (parseCalcName_safe _)
    · rintro ⟨n, off⟩ hn _
      obtain ⟨hq, hoff⟩ := (parseCalcName_ok _ _ _).mp hn
      apply wp_bind
      apply wp_nRecords
      · intro o ho
        apply wp_bind
        apply wp_find ho
        · intro hn; exact wp_throw (.bad _ (.missing o n ho hq hn))
        · intro j q hj hjn
          simp only
          apply wp_ite
          · intro h
            simp only [Bool.and_eq_true, bne_iff_ne, Bool.not_eq_true'] at h
            exact wp_throw (.bad _ (.touch o n j q ho hq hj hjn h.1.1 h.1.2 h.2))
          · intro ht
            have htouch : NeedsTouch q → i.nfc = true ∨ i.touch = true := by
              intro hp
              have hp' : (q.prop &&& 2 != 0) = true := by simpa [NeedsTouch] using hp
              rw [hp'] at ht
              cases h1 : i.nfc <;> cases h2 : i.touch <;> simp [h1, h2] at ht ⊢
            apply wp_bind
            simp only [factor, Cmd.throw_bind, beq_iff_eq]
            apply wp_ite
            · intro htot
              apply wp_bind
              apply wp_parse (parseChal_safe _ _)
              · intro c hc _
                have hcr := calcReq_of hq hoff hc
                apply wp_bind
                apply wp_enforce ho hj
                · intro hi
                  rw [if_neg (by simp)]
                  apply wp_pure
                  apply wp_bind
                  apply wp_mem (answer_eq hx _ _ _)
                  exact wp_pure (.totp o n c j q ho hcr hj hjn htot htouch hi)
                · intro hi hno
                  rw [if_pos (by simp)]
                  exact wp_throw (.bad _ (.old o n c j q ho hcr hj hjn htot hi hno))
                · intro hi hl hc
                  rw [if_neg (by simp)]
                  apply wp_pure
                  apply wp_bind
                  apply wp_mem (answer_eq hx _ _ _)
                  exact wp_pure (.totpInc o n c j q ho hcr hj hjn htot htouch hi hl hc _ (.inl rfl))
                · intro hi hl hc hfail
                  rw [if_neg (by simp)]
                  apply wp_pure
                  apply wp_bind
                  apply wp_mem (answer_eq hx _ _ _)
                  exact wp_pure (.totpInc o n c j q ho hcr hj hjn htot htouch hi hl hc _ (.inr ⟨hfail, rfl⟩))
                · exact .cut
              · intro sw hsw
                refine .bad sw (.noChal o n j q ho hq hj hjn htot htouch sw (parseChal_throws _ _ sw hsw) ?_)
                intro c hc
                exact not_ok_of_err hsw (parseChal_of_calcReq hq hoff hc)
            · intro hnt
              apply wp_ite
              · intro hh
                cases hc : increaseCounter q.chal with
                | none => exact wp_throw (.bad _ (.max o n j q ho hq hj hjn hh htouch hc))
                | some c =>
                  apply wp_bind
                  apply wp_updChal ho hj
                  · intro b
                    apply wp_pure
                    apply wp_bind
                    apply wp_mem (answer_eq hx _ _ _)
                    exact wp_pure (.hotp o n c j q ho hq hj hjn hh htouch hc _ (.inl rfl))
                  · intro hfail b
                    apply wp_pure
                    apply wp_bind
                    apply wp_mem (answer_eq hx _ _ _)
                    exact wp_pure (.hotp o n c j q ho hq hj hjn hh htouch hc _ (.inr ⟨hfail, rfl⟩))
                  · exact .cut
              · intro hnh; exact wp_throw (.bad _ (.type o n j q ho hq hj hjn hnt hnh))
        · intro h; exact .bad _ (.io (.inr h))
        · exact .cut
      · intro h; exact .bad _ (.io h)
      · exact .cut
    · intro sw hsw
      refine .bad sw (.noName sw (parseCalcName_throws _ sw hsw) ?_)
      intro n hn
      exact not_ok_of_err hsw ((parseCalcName_ok _ _ _).mpr ⟨hn, rfl⟩)

/-! ### LIST -/

/-- One record in the answer of LIST. -/
def listEntry (q : Rec) : Bytes :=
  if q.name = [] then [] else [0x72, UInt8.ofNat (q.name.length + 1), q.alg] ++ q.name

/-- The answer of LIST for records `a` to `b - 1`. -/
def listSpan (recs : List Rec) (a b : Nat) : Bytes := ((recs.drop a).take (b - a)).flatMap listEntry

theorem drop_take_succ {recs : List Rec} {a b : Nat} {q : Rec} (h : recs[a]? = some q) (hb : a < b) :
    (recs.drop a).take (b - a) = q :: (recs.drop (a + 1)).take (b - (a + 1)) := by
  obtain ⟨hl, rfl⟩ := List.getElem?_eq_some_iff.mp h
  rw [List.drop_eq_getElem_cons hl, show b - a = b - (a + 1) + 1 by omega, List.take_succ_cons]

theorem listLoop_eff {o : OathFile} (ho : f.oath = some o) (le k : Nat) (out : Bytes)
    (hk : o.recs.length ≤ r.idx + k) :
    wp A (listLoop o.recs.length le k out)
      (fun p f' r' => f' = f ∧ ∃ j, r' = { r with idx := j } ∧ r.idx ≤ j ∧
        (r.idx ≤ o.recs.length → j ≤ o.recs.length) ∧ p.1 = out ++ listSpan o.recs r.idx j ∧
        (p.2 = true → ∃ q, o.recs[j]? = some q ∧ le < p.1.length + 3 + q.name.length) ∧
        (p.2 = false → o.recs.length ≤ j))
      (fun e f' r' => A .fail ∧ e = ioErr ∧ f' = f ∧ ∃ j, r' = { r with idx := j })
      (fun f' _ => A .cut ∧ f' = f) f r := by
  induction k generalizing out r with
  | zero =>
    simp only [listLoop]
    apply wp_pure
    refine ⟨rfl, r.idx, rfl, Nat.le_refl _, fun h => h, ?_, by simp, fun _ => by omega⟩
    simp [listSpan]
  | succ k ih =>
    simp only [listLoop]
    apply wp_bind
    apply wp_get
    apply wp_ite
    · intro hlt
      apply wp_bind
      apply wp_readRec ho hlt
      · intro q hq
        apply wp_ite
        · intro hle
          apply wp_pure
          refine ⟨rfl, r.idx, rfl, Nat.le_refl _, fun h => h, by simp [listSpan], fun _ => ⟨q, hq, hle⟩, by simp⟩
        · intro hle
          apply wp_bind
          apply wp_mod
          have hrec : ∀ out', out' = out ++ listEntry q →
              wp A (listLoop o.recs.length le k out')
                (fun p f' r' => f' = f ∧ ∃ j, r' = { r with idx := j } ∧ r.idx ≤ j ∧
                  (r.idx ≤ o.recs.length → j ≤ o.recs.length) ∧ p.1 = out ++ listSpan o.recs r.idx j ∧
                  (p.2 = true → ∃ q, o.recs[j]? = some q ∧ le < p.1.length + 3 + q.name.length) ∧
                  (p.2 = false → o.recs.length ≤ j))
                (fun e f' r' => A .fail ∧ e = ioErr ∧ f' = f ∧ ∃ j, r' = { r with idx := j })
                (fun f' _ => A .cut ∧ f' = f) f { r with idx := r.idx + 1 } := by
            intro out' hout
            refine wp_mono (ih (r := { r with idx := r.idx + 1 }) out' (by simp only; omega)) ?_ ?_ ?_
            · rintro p f' r' ⟨hf, j, hr, h1, h2, h3, h4, h5⟩
              simp only at h1 h2 h3 hr
              refine ⟨hf, j, hr, by omega, fun _ => h2 (by omega), ?_, h4, h5⟩
              rw [h3, hout, List.append_assoc]
              congr 1
              simp only [listSpan]
              rw [drop_take_succ hq (by omega)]
              simp
            · rintro e f' r' ⟨h1, h2, h3, j, h4⟩; exact ⟨h1, h2, h3, j, h4⟩
            · intro f' r' h; exact h
          apply wp_ite
          · intro hz
            apply hrec
            have : q.name = [] := by simpa using hz
            simp [listEntry, this]
          · intro hz
            apply hrec
            have : ¬ q.name = [] := by simpa using hz
            simp [listEntry, this]
      · intro h; exact ⟨h, rfl, rfl, r.idx, rfl⟩
      · intro h; exact ⟨h, rfl⟩
    · intro hge
      apply wp_pure
      exact ⟨rfl, r.idx, rfl, Nat.le_refl _, fun h => h, by simp [listSpan], by simp, fun _ => by omega⟩

/-- The outcomes of LIST and of SEND REMAINING after it. -/
inductive ListEff (A : Fault → Prop) (i : In) (f : Flash) (r : Ram) :
    Outcome Reply → Flash → Ram → Prop
  | bad (sw : SW) (h : sw = SW.wrongP1P2) (hp : i.c.p1 ≠ 0 ∨ i.c.p2 ≠ 0) :
      ListEff A i f r (.done (.sw sw)) f r
  | io (h : Io A f) (r' : Ram) (hr : ∃ j, r' = { r with rem := .list, idx := j }) :
      ListEff A i f r (.done ioErr) f r'
  | cut (h : A .cut) (r' : Ram) : ListEff A i f r .cut f r'
  | more (o : OathFile) (h12 : i.c.p1 = 0 ∧ i.c.p2 = 0) (ho : f.oath = some o) (j : Nat)
      (hj : r.idx ≤ j) (q : Rec)
      (hq : o.recs[j]? = some q) (hle : i.c.le < (listSpan o.recs r.idx j).length + 3 + q.name.length) :
      ListEff A i f r (.done (.resp (listSpan o.recs r.idx j) SW.more)) f
        { r with rem := .list, idx := j }
  | last (o : OathFile) (h12 : i.c.p1 = 0 ∧ i.c.p2 = 0) (ho : f.oath = some o) (j : Nat)
      (hj : r.idx ≤ j) (hn : o.recs.length ≤ j) (hn' : r.idx ≤ o.recs.length → j = o.recs.length) :
      ListEff A i f r (.done (.resp (listSpan o.recs r.idx j) SW.ok)) f
        { r with rem := .none, idx := j }

theorem list_eff : wp A (list i) (fun a => ListEff A i f r (.done a))
    (fun e => ListEff A i f r (.done e)) (ListEff A i f r .cut) f r := by
  simp only [list, Cmd.throw_bind]
  apply wp_ite
  · intro h; exact wp_throw (.bad _ rfl (p12_pos h))
  · intro h12
    have h12 := p12_neg h12
    apply wp_bind
    apply wp_mod
    apply wp_bind
    apply wp_nRecords
    · intro o ho
      apply wp_bind
      refine wp_mono (listLoop_eff (r := { r with rem := .list }) ho i.c.le o.recs.length []
        (by simp only; omega)) ?_ ?_ ?_
      · rintro ⟨out, more⟩ f' r' ⟨rfl, j, rfl, h1, h2, h3, h4, h5⟩
        simp only at h1 h2 h3 h4 h5
        simp only [List.nil_append] at h3
        subst h3
        apply wp_bind
        apply wp_get
        apply wp_ite
        · intro hge
          simp only at hge
          apply wp_bind
          apply wp_mod
          apply wp_pure
          cases more with
          | true =>
            obtain ⟨q, hq, _⟩ := h4 rfl
            have := lt_of_getElem? hq; omega
          | false =>
            exact .last o h12 ho j h1 hge (fun h => by have := h2 h; omega)
        · intro hlt
          simp only at hlt
          apply wp_pure
          cases more with
          | true =>
            obtain ⟨q, hq, hle⟩ := h4 rfl
            exact .more o h12 ho j h1 q hq hle
          | false => have := h5 rfl; omega
      · rintro e f' r' ⟨h1, rfl, rfl, j, rfl⟩
        exact .io (.inr h1) _ ⟨j, rfl⟩
      · rintro f' r' ⟨h1, rfl⟩
        exact .cut h1 _
    · intro h; exact .io h _ ⟨r.idx, rfl⟩
    · intro h; exact .cut h _

end Verif.Oath
