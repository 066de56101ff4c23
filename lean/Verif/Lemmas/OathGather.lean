import Verif.Spec.OathAll
import Verif.Props.OathMore
/-
Lemmas for C106: CALCULATE ALL without faults either answers or is refused by a credential.
-/
set_option linter.unusedSimpArgs false
namespace Verif.Oath
open Verif.Spec.Oath Cmd

variable {A : Fault → Prop} {x : Ext} {i : In} {f f' : Flash} {r r' : Ram}

/-- A record from `a` on refuses `c`. -/
def Objects (c : Bytes) (recs : List Rec) (a : Nat) : Prop :=
  ∃ (k : Nat) (q : Rec), a ≤ k ∧ recs[k]? = some q ∧ Active q ∧ ¬ (c.length = 8 ∧ memcmpGt q.chal c = false)

theorem calcLoop_ends (hx : GoodHmac x) {o : OathFile} (ho : f.oath = some o) (le k : Nat) (out : Bytes) :
    wp noFault (calcLoop x o.recs.length le k out) (fun _ _ _ => True)
      (fun e _ _ => e = .sw SW.security ∧ Objects (r.cBuf.take r.cLen) o.recs r.idx)
      (fun _ _ => False) f r := by
  induction k generalizing out r f o with
  | zero => exact wp_pure trivial
  | succ k ih =>
    simp only [calcLoop]
    apply wp_bind
    apply wp_get
    apply wp_ite
    · intro hlt
      apply wp_bind
      apply wp_readRec ho hlt
      · intro q hq
        apply wp_ite
        · intro _; exact wp_pure trivial
        · intro _
          apply wp_bind
          apply wp_mod
          have hrec : ∀ out' f1 q1, f1 = { f with oath := some { o with recs := o.recs.set r.idx q1 } } →
              wp noFault (calcLoop x o.recs.length le k out') (fun _ _ _ => True)
                (fun e _ _ => e = .sw SW.security ∧ Objects (r.cBuf.take r.cLen) o.recs r.idx)
                (fun _ _ => False) f1 { r with idx := r.idx + 1 } := by
            intro out' f1 q1 hf1
            have ho1 : f1.oath = some { o with recs := o.recs.set r.idx q1 } := by rw [hf1]
            have := ih (r := { r with idx := r.idx + 1 }) ho1 out'
            rw [show ({ o with recs := o.recs.set r.idx q1 } : OathFile).recs.length = o.recs.length by simp] at this
            refine wp_mono this (fun _ _ _ h => h) ?_ (fun _ _ h => h)
            rintro e _ _ ⟨he, n, t, hn, ht, hh⟩
            simp only at hn ht
            rw [List.getElem?_set_ne (by omega)] at ht
            exact ⟨he, n, t, by omega, ht, hh⟩
          apply wp_ite
          · intro _
            apply hrec out f q
            rw [set_same hq]; cases f; simp at ho; simp [ho]
          · intro hz
            have hz : q.name ≠ [] := by simpa using hz
            apply wp_bind
            refine wp_mono (calcOne_eff hx ho hq hz _ _) ?_ ?_ ?_
            · rintro d f1 r1 ⟨rfl, rfl, q1, hp, hf1⟩
              exact hrec _ _ q1 hf1
            · rintro e f1 r1 ⟨rfl, rfl, rfl, h1, h2⟩
              exact ⟨rfl, _, q, Nat.le_refl _, hq, h1, h2⟩
            · rintro f1 r1 ⟨h, _⟩; exact no_cut h
      · intro h; exact absurd h no_fail
      · intro h; exact no_cut h
    · intro _; exact wp_pure trivial

/-- The request is the first one for `c`, or a later one of a run for `c`. -/
def AllReq (i : In) (r : Ram) (c : Bytes) : Prop :=
  if r.idx = 0 then 1 ≤ c.length ∧ c.length ≤ 8 ∧ i.c.data = chalTlv c else c = r.cBuf.take r.cLen

/-- The outcomes without faults. -/
def AllEnds (c : Bytes) (recs : List Rec) (a : Nat) (o : Outcome Reply) : Prop :=
  (∃ d sw, o = .done (.resp d sw) ∧ (sw = SW.ok ∨ sw = SW.more)) ∨
  (o = .done (.sw SW.security) ∧ Objects c recs a)

theorem calculateAll_ends (hx : GoodHmac x) {o : OathFile} (ho : f.oath = some o) {c : Bytes}
    (hp : i.c.p2 = 0 ∨ i.c.p2 = 1) (hc : AllReq i r c) :
    wp noFault (calculateAll x i) (fun a _ _ => AllEnds c o.recs r.idx (.done a))
      (fun e _ _ => AllEnds c o.recs r.idx (.done e)) (fun _ _ => AllEnds c o.recs r.idx .cut) f r := by
  have body : ∀ r1 : Ram, r1.idx = r.idx → r1.cBuf.take r1.cLen = c →
      wp noFault (do
        let (out, more) ← calcLoop x o.recs.length i.c.le o.recs.length []
        let s ← Cmd.get
        if s.idx ≥ o.recs.length then Cmd.mod fun s => { s with rem := .none }
        return .resp out (if more then SW.more else SW.ok))
        (fun a _ _ => AllEnds c o.recs r.idx (.done a))
        (fun e _ _ => AllEnds c o.recs r.idx (.done e)) (fun _ _ => AllEnds c o.recs r.idx .cut) f r1 := by
    intro r1 h1 h2
    apply wp_bind
    refine wp_mono (calcLoop_ends hx (r := r1) ho i.c.le o.recs.length []) ?_ ?_ ?_
    · rintro ⟨out, more⟩ f1 r2 _
      have : AllEnds c o.recs r.idx (.done (.resp out (if more then SW.more else SW.ok))) :=
        .inl ⟨_, _, rfl, by cases more <;> simp⟩
      apply wp_bind
      apply wp_get
      apply wp_ite
      · intro _
        apply wp_bind
        apply wp_mod
        exact wp_pure this
      · intro _; exact wp_pure this
    · rintro e _ _ ⟨rfl, h⟩
      rw [h1, h2] at h
      exact .inr ⟨rfl, h⟩
    · intro _ _ h; exact h.elim
  simp only [calculateAll, Cmd.throw_bind]
  apply wp_ite
  · intro h
    exfalso
    rcases hp with h' | h' <;> rw [h'] at h <;> simp at h
  · intro _
    apply wp_bind
    apply wp_nRecords
    · intro o' ho'
      rw [ho] at ho'; cases ho'
      apply wp_bind
      apply wp_get
      apply wp_ite
      · intro h0
        have h0 : r.idx = 0 := by simpa using h0
        unfold AllReq at hc
        rw [if_pos h0] at hc
        obtain ⟨c1, c2, hd⟩ := hc
        have hb : (UInt8.ofNat c.length).toNat = c.length := by
          rw [UInt8.toNat_ofNat']; omega
        simp only [calcStart, Cmd.throw_bind]
        apply wp_bind
        rw [if_neg (by rw [hd]; simp [chalTlv])]
        apply wp_bind
        apply wp_mem (a := 0x74) (by rw [hd]; rfl)
        rw [if_neg (by simp)]
        apply wp_bind
        apply wp_mem (a := UInt8.ofNat c.length) (by rw [hd]; rfl)
        rw [if_neg (by
          simp only [Bool.or_eq_true, decide_eq_true_eq, beq_iff_eq, not_or]
          refine ⟨byte_le.mpr (by rw [hb]; exact c2), ?_⟩
          intro h
          rw [h] at hb
          simp at hb; omega)]
        apply wp_bind
        apply wp_mod
        rw [if_neg (by rw [hd, hb]; simp [chalTlv]; omega)]
        apply wp_bind
        apply wp_mem (a := c) (by
          rw [hd, rdRange_ok (by rw [hb]; simp [chalTlv]; omega), hb]
          simp [chalTlv])
        apply wp_mod
        apply body
        · rfl
        · simp only [hb]
          exact List.take_left' rfl
      · intro h0
        have h0 : ¬ r.idx = 0 := by simpa using h0
        unfold AllReq at hc
        rw [if_neg h0] at hc
        exact body r rfl hc.symm
    · intro h; exact absurd h (no_io ho)
    · intro h; exact absurd h no_cut

/-- The run of one request of a CALCULATE ALL run, from RAM `r0`. -/
theorem step_all (hx : GoodHmac x) {s : St} {o : OathFile} (ho : s.flash.oath = some o)
    (hval : s.ram.validated = true) {c : Bytes} (hp : i.c.p2 = 0 ∨ i.c.p2 = 1) (r0 : Ram)
    (hr0 : (i.c.ins = 0xA4 ∧ i.c.p1 = 0 ∧ r0 = { s.ram with idx := 0 }) ∨
      (i.c.ins = 0xA5 ∧ (s.ram.rem = .calcFull ∨ s.ram.rem = .calcTrunc) ∧ r0 = s.ram))
    (hc : AllReq i r0 c) :
    ∃ oc f' r', AllEff noFault x i s.flash r0 oc f' r' ∧ AllEnds c o.recs r0.idx oc ∧
      step x s (.apdu i) (fun _ => .ok) =
        match oc with
        | .done a => (⟨f', r'⟩, .reply a)
        | .cut => (⟨f', Ram.init⟩, .cut) := by
  have hw1 : wp noFault (process x i) (fun a _ _ => AllEnds c o.recs r0.idx (.done a))
      (fun e _ _ => AllEnds c o.recs r0.idx (.done e)) (fun _ _ => AllEnds c o.recs r0.idx .cut)
      s.flash s.ram := by
    simp only [process]
    apply wp_bind
    apply wp_get
    rw [if_neg (by simp [hval])]
    rcases hr0 with ⟨h1, h2, rfl⟩ | ⟨h1, h2, rfl⟩
    · simp only [h1, h2, hval, Cmd.throw_bind, beq_self_eq_true, if_true, Bool.not_true, Bool.false_eq_true, if_false]
      simp only [show ((0xA4 : Byte) == 0x01) = false from rfl, show ((0xA4 : Byte) == 0x02) = false from rfl,
        show ((0xA4 : Byte) == 0x03) = false from rfl, show ((0xA4 : Byte) == 0x05) = false from rfl,
        show ((0xA4 : Byte) == 0xA1) = false from rfl, show ((0xA4 : Byte) == 0xA2) = false from rfl,
        show ((0xA4 : Byte) == 0xA3) = false from rfl, show ((0 : Byte) == 0x04) = false from rfl,
        Bool.false_eq_true, if_false]
      apply wp_bind
      apply wp_mod
      exact calculateAll_ends hx ho hp hc
    · simp only [h1, beq_self_eq_true, if_true]
      simp only [show ((0xA5 : Byte) == 0x01) = false from rfl, show ((0xA5 : Byte) == 0x02) = false from rfl,
        show ((0xA5 : Byte) == 0x03) = false from rfl, show ((0xA5 : Byte) == 0x05) = false from rfl,
        show ((0xA5 : Byte) == 0xA1) = false from rfl, show ((0xA5 : Byte) == 0xA2) = false from rfl,
        show ((0xA5 : Byte) == 0xA3) = false from rfl, show ((0xA5 : Byte) == 0xA4) = false from rfl,
        Bool.false_eq_true, if_false, sendRemaining]
      apply wp_bind
      apply wp_get
      rcases h2 with h2 | h2 <;> simp only [h2] <;> exact calculateAll_ends hx ho hp hc
  obtain ⟨oc, f', r', h, hs⟩ := step_apdu hx s i ok_env
  have h2 := runCmd_of_wp (P := fun oc _ _ => AllEnds c o.recs r0.idx oc) hw1 ok_env
  refine ⟨oc, f', r', ?_, ?_, hs⟩
  · rcases hr0 with ⟨h1, h2, rfl⟩ | ⟨h1, h2, rfl⟩
    · cases h <;> simp_all
    · cases h <;> simp_all
  · have e : (runCmd (process x i) s.flash s.ram (fun _ => .ok)).2.2 = oc := by
      simp only [step, exec] at hs
      rcases hr : runCmd (process x i) s.flash s.ram (fun _ => .ok) with ⟨f1, r1, o1⟩
      rw [hr] at hs
      cases o1 <;> cases oc <;> simp_all
    rw [e] at h2
    exact h2

theorem drop_page {o o' : OathFile} {c : Bytes} {a j : Nat} (h : Rel (PageRel A c a j) o o') :
    o'.recs.drop j = o.recs.drop j := by
  obtain ⟨_, _, hl, hr⟩ := h
  apply List.ext_getElem?
  intro k
  rw [List.getElem?_drop, List.getElem?_drop]
  by_cases hk : j + k < o.recs.length
  · obtain ⟨q, hq⟩ : ∃ q, o.recs[j + k]? = some q := ⟨_, List.getElem?_eq_getElem hk⟩
    obtain ⟨q', hq'⟩ : ∃ q, o'.recs[j + k]? = some q := ⟨_, List.getElem?_eq_getElem (by omega)⟩
    have := hr _ q q' hq hq'
    unfold PageRel at this
    rw [if_neg (by omega)] at this
    rw [hq, hq', this]
  · rw [List.getElem?_eq_none (by omega), List.getElem?_eq_none (by omega)]

theorem allSpan_append {t : Bool} {c : Bytes} {recs : List Rec} {a j b : Nat} (h1 : a ≤ j) (h2 : j ≤ b) :
    allSpan x t c recs a j ++ allSpan x t c recs j b = allSpan x t c recs a b := by
  unfold allSpan
  rw [← List.flatMap_append]
  congr 1
  have : b - a = (j - a) + (b - j) := by omega
  rw [this, List.take_add, List.drop_drop]
  congr 3
  omega

/-- Two pages one after the other. -/
theorem page_trans {o o1 o' : OathFile} {c : Bytes} {a j b : Nat} (h1 : a ≤ j) (h2 : j ≤ b)
    (h : Rel (PageRel A c a j) o o1) (h' : Rel (PageRel A c j b) o1 o') : Rel (PageRel A c a b) o o' := by
  refine ⟨h'.1.trans h.1, h'.2.1.trans h.2.1, h'.2.2.1.trans h.2.2.1, ?_⟩
  intro k q q' hq hq'
  obtain ⟨q1, hq1⟩ := get_of_length' h.2.2.1 hq
  have e1 := h.2.2.2 k q q1 hq hq1
  have e2 := h'.2.2.2 k q1 q' hq1 hq'
  unfold PageRel at e1 e2 ⊢
  by_cases c1 : a ≤ k ∧ k < j
  · rw [if_pos c1] at e1; rw [if_neg (by omega)] at e2; rw [if_pos (by omega), e2]; exact e1
  · rw [if_neg c1] at e1
    subst e1
    by_cases c2 : j ≤ k ∧ k < b
    · rw [if_pos c2] at e2; rw [if_pos (by omega)]; exact e2
    · rw [if_neg c2] at e2; rw [if_neg (by omega)]; exact e2

/-- The command as the host sends it in `gather`. -/
def allCmd (ins p2 : Byte) (d : Bytes) (le : Nat) : In :=
  { c := ⟨0, ins, 0, p2, d, le⟩, nfc := false, touch := false, rnd := [] }

theorem gather_succ (k : Nat) (le : Nat → Nat) (s : St) (ins p2 : Byte) (d : Bytes) :
    gather x (k + 1) le s ins p2 d =
    match step x s (.apdu (allCmd ins p2 d (le 0))) (fun _ => .ok) with
    | (s', .reply (.resp b sw)) =>
      if sw = SW.more then
        (gather x k (fun n => le (n + 1)) s' 0xA5 0 []).map fun (b', sw', t) => (b ++ b', sw', t)
      else some (b, sw, s')
    | _ => none := rfl

theorem gather_from (hx : GoodHmac x) (c : Bytes) (t : Rem) (ht : t = .calcFull ∨ t = .calcTrunc) (k : Nat) :
    ∀ (s : St) (o : OathFile) (ins p2 : Byte) (d : Bytes) (a : Nat) (le : Nat → Nat), s.flash.oath = some o →
      (∀ q ∈ o.recs, q.name.length ≤ 64) → s.ram.validated = true →
      (∀ n, 69 + (if t == .calcTrunc then 4 else 64) ≤ le n) →
      (ins = 0xA4 ∧ p2 = (if t == .calcTrunc then 1 else 0) ∧ d = chalTlv c ∧ 1 ≤ c.length ∧ c.length ≤ 8 ∧ a = 0 ∨
        ins = 0xA5 ∧ p2 = 0 ∧ d = [] ∧ s.ram.rem = t ∧ s.ram.idx = a ∧ 0 < a ∧ s.ram.cBuf.take s.ram.cLen = c) →
      a ≤ o.recs.length → o.recs.length < a + k →
      (∃ s', gather x k le s ins p2 d = some (allSpan x (t == .calcTrunc) c o.recs a o.recs.length, SW.ok, s') ∧
        AllPost (PageRel noFault c a o.recs.length) s.flash o s'.flash) ∨
      (∃ b s', gather x k le s ins p2 d = some (b, SW.security, s') ∧ Objects c o.recs a) := by
  induction k with
  | zero => intro s o ins p2 d a le _ _ _ _ _ h1 h2; omega
  | succ k ih =>
    intro s o ins p2 d a le ho hw hval hle hins h1 h2
    rw [gather_succ]
    obtain ⟨r0, ha, hr0, hreq, hp2, hT⟩ : ∃ r0 : Ram, r0.idx = a ∧
        ((ins = 0xA4 ∧ r0 = { s.ram with idx := 0 }) ∨ (ins = 0xA5 ∧ s.ram.rem = t ∧ r0 = s.ram)) ∧
        AllReq (allCmd ins p2 d (le 0)) r0 c ∧ (p2 = 0 ∨ p2 = 1) ∧
        ∀ t' c', AllChal (allCmd ins p2 d (le 0)) r0 t' c' → t' = t ∧ c' = c := by
      rcases hins with ⟨rfl, rfl, rfl, c1, c2, rfl⟩ | ⟨rfl, rfl, rfl, e1, rfl, e2, e3⟩
      · refine ⟨{ s.ram with idx := 0 }, rfl, .inl ⟨rfl, rfl⟩, ?_, ?_, ?_⟩
        · unfold AllReq; rw [if_pos rfl]; exact ⟨c1, c2, rfl⟩
        · rcases ht with rfl | rfl
          · exact .inl rfl
          · exact .inr rfl
        · intro t' c' h
          unfold AllChal at h
          rw [if_pos rfl] at h
          obtain ⟨d1, d2, ⟨rest, d3⟩, d4⟩ := h
          constructor
          · rw [d4]; rcases ht with rfl | rfl <;> rfl
          · simp only [allCmd, chalTlv, List.cons_append, List.nil_append, List.cons.injEq, true_and] at d3
            have hl := congrArg UInt8.toNat d3.1
            rw [UInt8.toNat_ofNat', UInt8.toNat_ofNat'] at hl
            have hl : c.length = c'.length := by omega
            have := congrArg (List.take c.length) d3.2
            rw [List.take_length, hl, List.take_left' rfl] at this
            exact this.symm
      · refine ⟨s.ram, rfl, .inr ⟨rfl, e1, rfl⟩, ?_, .inl rfl, ?_⟩
        · unfold AllReq; rw [if_neg (by omega)]; exact e3.symm
        · intro t' c' h
          unfold AllChal at h
          rw [if_neg (by omega)] at h
          exact ⟨h.2.trans e1, h.1.trans e3⟩
    obtain ⟨oc, f', r', h, hend, hs⟩ := step_all (i := allCmd ins p2 d (le 0)) hx ho hval hp2 r0
      (by
        rcases hr0 with ⟨h1, h2⟩ | ⟨h1, h2, h3⟩
        · exact .inl ⟨h1, rfl, h2⟩
        · exact .inr ⟨h1, by rw [h2]; exact ht, h3⟩) hreq
    rw [hs]
    have hv0 : r0.validated = true := by
      rcases hr0 with ⟨_, rfl⟩ | ⟨_, _, rfl⟩ <;> exact hval
    cases h with
    | bad sw hsw =>
      rcases hend with ⟨d', sw', he, h⟩ | ⟨he, h⟩
      · simp only [Reply.sw, Outcome.done.injEq, Reply.resp.injEq] at he
        rw [← he.2] at h
        rcases h with h | h
        · exact absurd h hsw.1
        · exact absurd h hsw.2
      · simp only [Reply.sw, Outcome.done.injEq, Reply.resp.injEq, true_and] at he
        subst he
        refine .inr ⟨[], ⟨f', r'⟩, ?_, by rw [ha] at h; exact h⟩
        simp only [Reply.sw]
        rw [if_neg (by decide)]
    | cut h => exact absurd h no_cut
    | page o' ho' c' t' hc j hj hn f'' hf r'' hr hi hrem hcb sw hsw =>
      rw [ho] at ho'; cases ho'
      obtain ⟨rfl, rfl⟩ := hT t' c' hc
      rw [ha] at hj hn hf hsw
      rcases hsw with ⟨rfl, hlast⟩ | ⟨rfl, q, hq, hlt⟩
      · left
        have hjn : j = o.recs.length := by have := hn h1; omega
        subst hjn
        refine ⟨⟨f', r'⟩, ?_, hf⟩
        simp only [ha]
        rw [if_neg (by decide)]
      · have hjl := lt_of_getElem? hq
        have hqn := hw q (List.mem_of_getElem? hq)
        have hpos : a < j := by
          rcases Nat.lt_or_ge a j with h | h
          · exact h
          · exfalso
            have : j = a := by omega
            rw [this] at hlt
            have hz : (allSpan x (t' == .calcTrunc) c' o.recs a a).length = 0 := by simp [allSpan]
            have := hle 0
            simp only [allCmd] at hlt
            omega
        obtain ⟨o1, hf1, hrel⟩ := hf
        have hl1 := hrel.2.2.1
        have hdrop := drop_page hrel
        have hw1 : ∀ q ∈ o1.recs, q.name.length ≤ 64 := by
          intro p hp
          obtain ⟨k', hk'⟩ := List.mem_iff_getElem?.mp hp
          obtain ⟨p0, hp0⟩ := get_of_length' hl1.symm hk'
          have e := hrel.2.2.2 k' p0 p hp0 hk'
          have hn0 := hw p0 (List.mem_of_getElem? hp0)
          unfold PageRel at e
          split at e
          · rcases e.adv with rfl | ⟨_, _, _, rfl⟩
            · exact hn0
            · exact hn0
          · rw [e]; exact hn0
        have hsp : allSpan x (t' == .calcTrunc) c' o1.recs j o1.recs.length =
            allSpan x (t' == .calcTrunc) c' o.recs j o.recs.length := by
          unfold allSpan; rw [hdrop, hl1]
        have hob : Objects c' o1.recs j → Objects c' o.recs a := by
          rintro ⟨k', p, hk', hp, hh⟩
          refine ⟨k', p, by omega, ?_, hh⟩
          have e1 : (o1.recs.drop j)[k' - j]? = some p := by rw [List.getElem?_drop]; rw [← hp]; congr 1; omega
          rw [hdrop, List.getElem?_drop] at e1
          rw [← e1]; congr 1; omega
        have := ih ⟨f', r'⟩ o1 0xA5 0 [] j (fun n => le (n + 1)) (by rw [hf1]) hw1 (by rw [hr.1]; exact hv0)
          (fun n => hle (n + 1)) (.inr ⟨rfl, rfl, rfl, by simp only [hrem]; rw [if_neg (by omega)], hi, by omega, hcb⟩)
          (by omega) (by omega)
        simp only [ha]
        rw [if_pos trivial]
        rcases this with ⟨s', hg, hp⟩ | ⟨b, s', hg, hp⟩
        · left
          refine ⟨s', ?_, ?_⟩
          · rw [hg, Option.map_some]
            simp only
            rw [hsp, allSpan_append (by omega) (by omega)]
          · obtain ⟨o2, hf2, hrel2⟩ := hp
            refine ⟨o2, by rw [hf2, hf1], page_trans (by omega) (by omega) hrel (hl1 ▸ hrel2)⟩
        · right
          exact ⟨_, s', by rw [hg, Option.map_some], hob hp⟩

end Verif.Oath
