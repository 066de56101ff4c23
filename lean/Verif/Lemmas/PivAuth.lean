import Verif.Lemmas.Piv
import Verif.Lemmas.Key
/-
Effects of GENERAL AUTHENTICATE.
-/
set_option linter.unusedSimpArgs false
namespace Verif.Piv
open Cmd Verif.Spec.Piv Verif.KeyFile Verif.Spec.Key

variable {A : Fault → Prop} {x : Ext} {i : In} {f : Flash} {r : Ram}

/-! ### The template -/

/-- The value at `p`, of length `l`, stands under `tag`. -/
def Found (m : Bytes) (tag : Byte) (p l : Nat) : Prop :=
  ∃ pre len v post, m = pre ++ [tag] ++ len ++ v ++ post ∧ LenEnc l len ∧ v.length = l ∧
    p = (pre ++ [tag] ++ len).length

structure TlvsOk (m : Bytes) (t : Tlvs) : Prop where
  w : ∀ p l, t.w = some (p, l) → Found m 0x80 p l
  c : ∀ p l, t.c = some (p, l) → Found m 0x81 p l
  r : ∀ p l, t.r = some (p, l) → Found m 0x82 p l
  e : ∀ p l, t.e = some (p, l) → Found m 0x85 p l

theorem found_of {m : Bytes} {tag : Byte} {pos l ls : Nat} (hp : pos < m.length) (ht : m[pos]? = some tag)
    (h : Key.tlvLen m (pos + 1) (m.length - (pos + 1)) = .ok (some (l, ls))) :
    Found m tag (pos + 1 + ls) l := by
  have h' := Key.tlvLen_drop m (pos + 1) 0 (m.length - (pos + 1))
  rw [Nat.add_zero, h] at h'
  obtain ⟨len, rest, h1, h2, h3, h4⟩ := Key.tlvLen_inv (mem := m.drop (pos + 1)) (by simpa using h')
  refine ⟨m.take pos, len, rest.take l, rest.drop l, ?_, h2, by simp; omega, ?_⟩
  · have e1 : m = m.take pos ++ ([tag] ++ m.drop (pos + 1)) := by
      have : m.drop pos = [tag] ++ m.drop (pos + 1) := by
        rw [List.getElem?_eq_getElem hp] at ht
        cases ht
        simp
      rw [← this, List.take_append_drop]
    calc m = _ := e1
      _ = _ := by rw [h1]; simp [List.take_append_drop]
  · simp [h3]; omega

theorem tlvLoop_ok {m : Bytes} : ∀ (n pos : Nat) (t t' : Tlvs), PE.Ok (tlvLoop m n pos t) t' → TlvsOk m t →
    TlvsOk m t' := by
  intro n
  induction n with
  | zero =>
    intro pos t t' h ht
    unfold tlvLoop at h
    rw [PE.ok_pure_iff] at h
    exact h ▸ ht
  | succ n ih =>
    intro pos t t' h ht
    unfold tlvLoop at h
    by_cases hp : pos < m.length
    · rw [if_pos hp] at h
      rw [PE.ok_bind_iff] at h
      obtain ⟨tag, htag, h⟩ := h
      rw [PE.ok_lift_iff, rd_eq_ok] at htag
      by_cases hc : (tag != 0x80 && tag != 0x81 && tag != 0x82 && tag != 0x85) = true
      · rw [if_pos hc] at h
        exact (PE.ok_throw_iff.1 h).elim
      · rw [if_neg hc] at h
        rw [PE.ok_bind_iff] at h
        obtain ⟨o, ho, h⟩ := h
        rw [PE.ok_lift_iff] at ho
        cases o with
        | none => exact (PE.ok_throw_iff.1 h).elim
        | some a =>
          obtain ⟨l, ls⟩ := a
          have hf := found_of hp htag ho
          refine ih _ _ _ h ?_
          by_cases h0 : tag = 0x80
          · subst h0
            simp only [beq_self_eq_true, if_true]
            exact ⟨fun p l e => by cases e; exact hf, ht.c, ht.r, ht.e⟩
          · rw [if_neg (by simpa using h0)]
            by_cases h1 : tag = 0x81
            · subst h1
              simp only [beq_self_eq_true, if_true]
              exact ⟨ht.w, fun p l e => by cases e; exact hf, ht.r, ht.e⟩
            · rw [if_neg (by simpa using h1)]
              by_cases h2 : tag = 0x82
              · subst h2
                simp only [beq_self_eq_true, if_true]
                exact ⟨ht.w, ht.c, fun p l e => by cases e; exact hf, ht.e⟩
              · rw [if_neg (by simpa using h2)]
                have h3 : tag = 0x85 := by simp_all
                subst h3
                exact ⟨ht.w, ht.c, ht.r, fun p l e => by cases e; exact hf⟩
    · rw [if_neg hp, PE.ok_pure_iff] at h
      exact h ▸ ht

theorem tlvs_ok {m : Bytes} {t : Tlvs} (h : PE.Ok (tlvs m) t) : TlvsOk m t := by
  unfold tlvs at h
  rw [PE.ok_bind_iff] at h
  obtain ⟨o, _, h⟩ := h
  cases o with
  | none => exact (PE.ok_throw_iff.1 h).elim
  | some a =>
    exact tlvLoop_ok _ _ _ _ h ⟨fun _ _ e => by (cases e), fun _ _ e => by (cases e),
      fun _ _ e => by (cases e), fun _ _ e => by (cases e)⟩

theorem tlvLoop_throws {m : Bytes} : ∀ (n pos : Nat) (t : Tlvs), Throws (· ∈ errs) (tlvLoop m n pos t) := by
  intro n
  induction n with
  | zero => intro pos t; exact Throws.pure
  | succ n ih =>
    intro pos t
    unfold tlvLoop
    refine Throws.ite ?_ Throws.pure
    refine Throws.bind Throws.lift fun tag => ?_
    refine Throws.ite (Throws.throw (by decide)) ?_
    refine Throws.bind Throws.lift fun o => ?_
    cases o with
    | none => exact Throws.throw (by decide)
    | some a => exact ih _ _

theorem tlvs_throws {m : Bytes} : Throws (· ∈ errs) (tlvs m) := by
  unfold tlvs
  refine Throws.bind Throws.lift fun o => ?_
  cases o with
  | none => exact Throws.throw (by decide)
  | some a => exact tlvLoop_throws _ _ _

theorem lenEnc8 {len : Bytes} (h : LenEnc 8 len) : len = [8] ∨ len = [0x81, 8] ∨ len = [0x82, 0, 8] := by
  cases h
  · exact .inl rfl
  · exact .inr (.inl rfl)
  · exact .inr (.inr rfl)

theorem carries_of {m v : Bytes} {tag : Byte} {p : Nat} (h : Found m tag p 8) (hv : rdRange m p 8 = .ok v) :
    Carries m tag v := by
  obtain ⟨pre, len, w, post, h1, h2, h3, h4⟩ := h
  rw [rdRange_eq_ok] at hv
  have : w = v := by
    rw [← hv.2, h1, h4, List.append_assoc _ w post, List.drop_left, List.take_left' h3]
  subst this
  exact ⟨h3, pre, len, post, h1, lenEnc8 h2⟩

/-! ### The cases -/

/-- The command failed: not answered 9000, and not undefined behaviour of which nothing is known. -/
def Failed (o : Outcome Reply) : Prop := ∃ a, o = .done a ∧ ∀ d, a ≠ .resp d 0x9000

theorem bad_failed {o : Outcome Reply} (h : Bad o) : Failed o := by
  rcases h with ⟨u, rfl⟩ | ⟨sw, h, rfl⟩
  · exact ⟨_, rfl, fun d e => by cases e⟩
  · refine ⟨_, rfl, fun d e => ?_⟩
    cases e
    revert h; decide

/-- What the policies of a key demand of the variables. -/
def Allowed (m : Meta) (r : Ram) : Prop :=
  (m.pin ≠ 1 → r.pin.validated = true) ∧ (m.pin = 3 → r.consumed = false)

/-- The outcomes of the cases of GENERAL AUTHENTICATE. -/
inductive CaseEff (A : Fault → Prop) (x : Ext) (i : In) (k : Ref) (m : Meta) (f : Flash) (r : Ram) :
    Outcome Reply → Ram → Prop
  | cut (h : A .cut) (r' : Ram) : CaseEff A x i k m f r .cut r'
  | fail (o : Outcome Reply) (ho : Failed o) (r' : Ram) (c : Bool) (hc : r.consumed = true → c = true)
      (ha : r' = { authReset r with consumed := c } ∨ r' = { r with consumed := c } ∨
        r' = { authReset r with consumed := c, admin := false }) :
      CaseEff A x i k m f r o r'
  | lost (hk : k = .adm) (hl : A .fail ∨ f.mgmt.bind (·.info) = none ∨ ∃ a b, x.cr.tdes a b = none) (d ch : Bytes) (a : Auth) :
      CaseEff A x i k m f r (.done (.resp d 0x6900)) { r with auth := a, chal := ch, admin := false }
  | key (s : Slot) (hk : k = .slot s) (hm : Allowed m r) (d : Bytes)
      (hd : ∀ t v, t = 0x80 ∨ t = 0x81 → d ≠ [0x7C, 0x0A, t, 0x08] ++ v) :
      CaseEff A x i k m f r (.done (.resp d 0x9000)) { authReset r with consumed := true }
  | extReq (hk : k = .adm) (q : Mgmt) (hq : f.mgmt = some q) (v d : Bytes) (hd : x.cr.tdes q.key v = some d) :
      CaseEff A x i k m f r (.done (.resp ([0x7C, 0x0A, 0x81, 0x08] ++ v) 0x9000))
        { r with auth := .external, chal := d, admin := false }
  | mutReq (hk : k = .adm) (q : Mgmt) (hq : f.mgmt = some q) (v d : Bytes) (hd : x.cr.tdes q.key d = some v) :
      CaseEff A x i k m f r (.done (.resp ([0x7C, 0x0A, 0x80, 0x08] ++ v) 0x9000))
        { r with auth := .mutual, chal := d, admin := false }
  | extResp (hk : k = .adm) (ha : r.auth = .external) (hd : Carries i.c.data 0x82 r.chal) :
      CaseEff A x i k m f r (.done (.sw 0x9000)) { authReset r with admin := true }
  | mutResp (hk : k = .adm) (ha : r.auth = .mutual) (hd : Carries i.c.data 0x80 r.chal) (v : Bytes) :
      CaseEff A x i k m f r (.done (.resp ([0x7C, 0x0A, 0x82, 0x08] ++ v) 0x9000)) { authReset r with admin := true }

abbrev CE (A : Fault → Prop) (x : Ext) (i : In) (k : Ref) (m : Meta) (f : Flash) (r : Ram) (o : Outcome Reply)
    (f' : Flash) (r' : Ram) : Prop := CaseEff A x i k m f r o r' ∧ f' = f

theorem differs_iff {a b : Bytes} (hx : x.Ok) : (!differs x a b) = true ↔ a = b := by
  unfold differs
  by_cases h : a = b
  · simp [h]
  · simp [h, hx.1]

theorem extResp_wp {k : Ref} {m : Meta} {p l : Nat} (hx : x.Ok) (ht : Found i.c.data 0x82 p l) :
    wp A (caseExtResp x i k p l) (fun a => CE A x i k m f r (.done a)) (fun a => CE A x i k m f r (.done a))
      (CE A x i k m f r .cut) f r := by
  have bad : CE A x i k m f r (.done (.sw SW.security)) f (authReset r) :=
    ⟨.fail _ (bad_failed (bad_sw (by decide))) _ r.consumed id (.inl rfl), rfl⟩
  unfold caseExtResp
  apply wp_bind; apply wp_get
  apply wp_ite <;> intro h
  · exact wp_bind (wp_pure (wp_bind (wp_mod (wp_throw bad))))
  · apply wp_bind
    apply wp_mem
    · intro d hd
      apply wp_bind; apply wp_pure
      simp only [Bool.or_eq_true, bne_iff_ne, ne_eq, not_or, Decidable.not_not] at h
      obtain ⟨⟨h1, h2⟩, h3⟩ := h
      apply wp_ite <;> intro h
      · exact wp_bind (wp_mod (wp_throw bad))
      · have : r.chal = d := (differs_iff hx).1 (by simpa using h)
        subst this
        subst h3
        exact wp_bind (wp_mod (wp_pure ⟨.extResp h2 h1 (carries_of ht hd), rfl⟩))
    · intro u _
      exact ⟨.fail _ (bad_failed (.inl ⟨u, rfl⟩)) _ r.consumed id (.inr (.inl rfl)), rfl⟩

theorem tdesOr_wp {inp : Bytes} {e : Reply} {Q : Bytes → Flash → Ram → Prop} {E : Reply → Flash → Ram → Prop}
    {X : Flash → Ram → Prop} (hX : A .cut → X f r)
    (hE : (A .fail ∨ f.mgmt.bind (·.info) = none ∨ ∃ a b, x.cr.tdes a b = none) → E e f r)
    (hQ : ∀ q o, f.mgmt = some q → x.cr.tdes q.key inp = some o → Q o f r) :
    wp A (tdesOr x inp e) Q E X f r := by
  unfold tdesOr
  wps
  all_goals first
    | exact hX ‹_›
    | exact hE (.inl ‹_›)
    | exact hE (.inr (.inl ‹_›))
    | skip
  · exact hE (.inr (.inr ⟨_, _, ‹_›⟩))
  · next q h _ _ h' =>
    obtain ⟨m, h1, h2⟩ := Option.map_eq_some_iff.mp h
    exact hQ m _ h1 (by rw [h2]; exact h')
  · next m h h' =>
    obtain ⟨q, h1, h2⟩ := Option.bind_eq_some_iff.mp h
    rw [h1] at h'; cases h'

theorem extReq_wp {k : Ref} {m : Meta} :
    wp A (caseExtReq x i k) (fun a => CE A x i k m f r (.done a)) (fun a => CE A x i k m f r (.done a))
      (CE A x i k m f r .cut) f r := by
  unfold caseExtReq
  apply wp_bind; apply wp_mod
  wps
  · exact ⟨.fail _ (bad_failed (bad_sw (by decide))) _ r.consumed id (.inr (.inr rfl)), rfl⟩
  · next h =>
    have hk : k = .adm := by simpa using h
    apply tdesOr_wp
    · exact fun h => ⟨.cut h _, rfl⟩
    · exact fun h => ⟨.lost hk h _ _ _, rfl⟩
    · intro q o hq ho
      exact wp_bind (wp_mod (wp_pure ⟨.extReq hk q hq _ _ ho, rfl⟩))

theorem mutReq_wp {k : Ref} {m : Meta} :
    wp A (caseMutReq x i k) (fun a => CE A x i k m f r (.done a)) (fun a => CE A x i k m f r (.done a))
      (CE A x i k m f r .cut) f r := by
  unfold caseMutReq
  apply wp_bind; apply wp_mod
  wps
  · exact ⟨.fail _ (bad_failed (bad_sw (by decide))) _ r.consumed id (.inr (.inr rfl)), rfl⟩
  · next h =>
    have hk : k = .adm := by simpa using h
    apply tdesOr_wp
    · exact fun h => ⟨.cut h _, rfl⟩
    · exact fun h => ⟨.lost hk h _ _ _, rfl⟩
    · intro q o hq ho
      exact wp_pure ⟨.mutReq hk q hq _ _ ho, rfl⟩

theorem mutResp_wp {k : Ref} {m : Meta} {wp' wl cp cl : Nat} (hx : x.Ok) (ht : Found i.c.data 0x80 wp' wl) :
    wp A (caseMutResp x i k wp' wl cp cl) (fun a => CE A x i k m f r (.done a)) (fun a => CE A x i k m f r (.done a))
      (CE A x i k m f r .cut) f r := by
  have bad : ∀ sw ∈ errs, CE A x i k m f r (.done (.sw sw)) f (authReset r) :=
    fun sw h => ⟨.fail _ (bad_failed (bad_sw h)) _ r.consumed id (.inl rfl), rfl⟩
  unfold caseMutResp
  apply wp_bind; apply wp_get
  apply wp_ite <;> intro h
  · exact wp_bind (wp_pure (wp_bind (wp_mod (wp_throw (bad _ (by decide))))))
  · apply wp_bind
    apply wp_mem
    · intro d hd
      apply wp_bind; apply wp_pure
      simp only [Bool.or_eq_true, bne_iff_ne, ne_eq, not_or, Decidable.not_not] at h
      obtain ⟨⟨h1, h2⟩, h3⟩ := h
      apply wp_ite <;> intro h
      · exact wp_bind (wp_mod (wp_throw (bad _ (by decide))))
      · have : r.chal = d := (differs_iff hx).1 (by simpa using h)
        subst this
        subst h3
        apply wp_ite <;> intro hc
        · exact wp_bind (wp_mod (wp_throw (bad _ (by decide))))
        · apply wp_bind
          apply wp_mem
          · intro ch _
            apply wp_bind
            apply tdesOr_wp
            · exact fun h => ⟨.cut h _, rfl⟩
            · exact fun h => ⟨.fail _ ⟨_, rfl, fun d e => by cases e⟩ _ r.consumed id (.inr (.inl rfl)), rfl⟩
            · intro q o hq ho
              exact wp_bind (wp_mod (wp_pure ⟨.mutResp h2 h1 (carries_of ht hd) _, rfl⟩))
          · intro u _
            exact ⟨.fail _ (bad_failed (.inl ⟨u, rfl⟩)) _ r.consumed id (.inr (.inl rfl)), rfl⟩
    · intro u _
      exact ⟨.fail _ (bad_failed (.inl ⟨u, rfl⟩)) _ r.consumed id (.inr (.inl rfl)), rfl⟩

theorem secCheck_wp {pol : Byte} : wp A (secCheck pol)
    (fun _ f' r' => r' = { r with consumed := true } ∧ f' = f ∧ (pol ≠ 1 → r.pin.validated = true) ∧
      (pol = 3 → r.consumed = false))
    (fun e f' r' => e = .sw 0x6982 ∧ f' = f ∧ r' = r) (fun _ _ => False) f r := by
  unfold secCheck
  wps
  all_goals simp_all [SW.security]

/-- The metadata of the key read together with its contents are those read before. -/
theorem readRef_wp {k : Ref} {m : Meta} (hm : metaOf k f = some m) : wp A (readRef k)
    (fun a f' r' => a.2 = m ∧ f' = f ∧ r' = r) (fun e f' r' => e = ioErr ∧ f' = f ∧ r' = r)
    (fun f' r' => A .cut ∧ f' = f ∧ r' = r) f r := by
  unfold readRef readKey
  cases k with
  | slot s =>
    wps
    all_goals simp_all [metaOf]
  | adm =>
    wps
    all_goals simp_all [metaOf]

theorem noGave {a b : Byte} {d : Bytes} (h : b = 0x82 ∨ a = 0x82) :
    ∀ t v, t = 0x80 ∨ t = 0x81 → [0x7C, a, b] ++ d ≠ [0x7C, 0x0A, t, 0x08] ++ v := by
  intro t v ht e
  simp only [List.cons_append, List.nil_append, List.cons.injEq, true_and] at e
  rcases h with h | h
  · subst h
    rcases ht with ht | ht <;> subst ht <;> exact absurd e.2.1 (by decide)
  · subst h
    exact absurd e.1 (by decide)

/-- A key whose type is not that of the management key lies in a slot. -/
def SlotKey (k : Ref) (m : Meta) : Prop := k = .adm → m.type = .tdea

theorem sign_wp {k : Ref} {m : Meta} {p l : Nat} (hm : metaOf k f = some m) (hk : SlotKey k m) :
    wp A (caseSign x i k m p l) (fun a => CE A x i k m f r (.done a)) (fun a => CE A x i k m f r (.done a))
      (CE A x i k m f r .cut) f r := by
  have fail : ∀ o, Bad o → CE A x i k m f r o f { authReset r with consumed := true } := fun o h =>
    ⟨.fail _ (bad_failed h) _ true (fun _ => rfl) (.inl rfl), rfl⟩
  unfold caseSign
  apply wp_bind; apply wp_mod
  apply wp_bind
  refine wp_mono secCheck_wp ?_ ?_ ?_
  · rintro _ f' r' ⟨rfl, rfl, h1, h2⟩
    have hal : Allowed m r := ⟨h1, h2⟩
    apply wp_ite <;> intro _
    · exact wp_throw (fail _ (bad_sw (by decide)))
    · apply wp_bind
      refine wp_mono (readRef_wp hm) ?_ ?_ ?_
      · rintro ⟨key, m'⟩ f'' r'' ⟨rfl, rfl, rfl⟩
        have slot : m'.type ≠ .tdea → ∃ s, k = .slot s := by
          intro ht
          cases k with
          | adm => exact absurd (hk rfl) ht
          | slot s => exact ⟨s, rfl⟩
        apply wp_ite <;> intro ht
        · obtain ⟨s, hs⟩ := slot (by intro e; rw [e] at ht; cases ht)
          apply wp_bind
          apply wp_mem
          · intro d hd
            wps
            · exact fail _ bad_io
            · exact ⟨.key s hs hal _ (by intro t v h; exact noGave (.inr rfl) t v h), rfl⟩
          · exact fun u _ => fail _ (.inl ⟨u, rfl⟩)
        · apply wp_ite <;> intro ht'
          · obtain ⟨s, hs⟩ := slot (by intro e; rw [e] at ht'; cases ht')
            apply wp_bind
            apply wp_mem
            · intro d hd
              wps
              · exact fail _ bad_io
              · exact ⟨.key s hs hal _ (by intro t v h; exact noGave (.inl rfl) t v h), rfl⟩
            · exact fun u _ => fail _ (.inl ⟨u, rfl⟩)
          · exact wp_throw (fail _ bad_io)
      · rintro e f'' r'' ⟨rfl, rfl, rfl⟩
        exact fail _ bad_io
      · rintro f'' r'' ⟨h, rfl, rfl⟩
        exact ⟨.cut h _, rfl⟩
  · rintro e f' r' ⟨rfl, rfl, rfl⟩
    exact ⟨.fail _ (bad_failed (bad_sw (by decide))) _ r.consumed id (.inl rfl), rfl⟩
  · exact fun _ _ h => h.elim

theorem ecdh_wp {k : Ref} {m : Meta} {p l : Nat} (hm : metaOf k f = some m) (hk : SlotKey k m) :
    wp A (caseEcdh x i k m p l) (fun a => CE A x i k m f r (.done a)) (fun a => CE A x i k m f r (.done a))
      (CE A x i k m f r .cut) f r := by
  have fail : ∀ o, Bad o → CE A x i k m f r o f { authReset r with consumed := true } := fun o h =>
    ⟨.fail _ (bad_failed h) _ true (fun _ => rfl) (.inl rfl), rfl⟩
  unfold caseEcdh
  apply wp_bind; apply wp_mod
  apply wp_bind
  refine wp_mono secCheck_wp ?_ ?_ ?_
  · rintro _ f' r' ⟨rfl, rfl, h1, h2⟩
    have hal : Allowed m r := ⟨h1, h2⟩
    apply wp_ite <;> intro ht
    · exact wp_throw (fail _ (.inl ⟨_, rfl⟩))
    · apply wp_ite <;> intro _
      · exact wp_throw (fail _ (bad_sw (by decide)))
      · apply wp_bind
        refine wp_mono (readRef_wp hm) ?_ ?_ ?_
        · rintro ⟨key, m'⟩ f'' r'' ⟨rfl, rfl, rfl⟩
          obtain ⟨s, hs⟩ : ∃ s, k = .slot s := by
            cases k with
            | adm => exact absurd (hk rfl) (by simpa using ht)
            | slot s => exact ⟨s, rfl⟩
          apply wp_bind
          apply wp_mem
          · intro d hd
            wps
            · exact fail _ bad_io
            · exact ⟨.key s hs hal _ (by intro t v h; exact noGave (.inl rfl) t v h), rfl⟩
          · exact fun u _ => fail _ (.inl ⟨u, rfl⟩)
        · rintro e f'' r'' ⟨rfl, rfl, rfl⟩
          exact fail _ bad_io
        · rintro f'' r'' ⟨h, rfl, rfl⟩
          exact ⟨.cut h _, rfl⟩
  · rintro e f' r' ⟨rfl, rfl, rfl⟩
    exact ⟨.fail _ (bad_failed (bad_sw (by decide))) _ r.consumed id (.inl rfl), rfl⟩
  · exact fun _ _ h => h.elim

/-! ### Touch and the whole command -/

/-- The touch policy is satisfied; `t` is the time of the last touch afterwards. -/
def TouchEff (i : In) (r : Ram) (m : Meta) (t : Nat) : Prop :=
  (i.nfc = true ∧ t = r.lastTouch) ∨
  (m.touch ≠ 2 ∧ m.touch ≠ 3 ∧ t = r.lastTouch) ∨
  ((m.touch = 2 ∨ m.touch = 3) ∧ i.nfc = false ∧ i.present = true ∧ t = i.tick') ∨
  (m.touch = 3 ∧ r.lastTouch < i.tick ∧ i.tick - r.lastTouch < 15000 ∧ t = r.lastTouch)

/-- The outcomes of GENERAL AUTHENTICATE. -/
inductive GAEff (A : Fault → Prop) (x : Ext) (i : In) (f : Flash) (r : Ram) : Outcome Reply → Ram → Prop
  | bad (o : Outcome Reply) (h : Bad o) : GAEff A x i f r o r
  | cut (h : A .cut) (r' : Ram) : GAEff A x i f r .cut r'
  | run (k : Ref) (hk : refOf i.c.p2 = some k) (m : Meta) (hm : metaOf k f = some m) (t : Nat)
      (ht : TouchEff i r m t) (o : Outcome Reply) (r' : Ram) (h : CaseEff A x i k m f { r with lastTouch := t } o r') :
      GAEff A x i f r o r'

theorem cases_wp {k : Ref} {m : Meta} {t : Tlvs} (hx : x.Ok) (hm : metaOf k f = some m) (hk : SlotKey k m)
    (ht : TlvsOk i.c.data t) : wp A (match caseOf t with
    | .sign p l => caseSign x i k m p l
    | .extReq => caseExtReq x i k
    | .extResp p l => caseExtResp x i k p l
    | .mutReq => caseMutReq x i k
    | .mutResp wp wl cp cl => caseMutResp x i k wp wl cp cl
    | .ecdh p l => caseEcdh x i k m p l
    | .invalid => do
      Cmd.mod authReset
      throw (.sw SW.wrongData)) (fun a => CE A x i k m f r (.done a)) (fun a => CE A x i k m f r (.done a))
      (CE A x i k m f r .cut) f r := by
  obtain ⟨tw, tc, tr, te⟩ := t
  cases h : caseOf ⟨tw, tc, tr, te⟩ with
  | sign p l => exact sign_wp hm hk
  | extReq => exact extReq_wp
  | extResp p l =>
    refine extResp_wp hx (ht.r p l ?_)
    unfold caseOf at h
    split at h <;> cases h
    simp_all
  | mutReq => exact mutReq_wp
  | mutResp wp' wl cp cl =>
    refine mutResp_wp hx (ht.w wp' wl ?_)
    unfold caseOf at h
    split at h <;> cases h
    simp_all
  | ecdh p l => exact ecdh_wp hm hk
  | invalid =>
    exact wp_bind (wp_mod (wp_throw ⟨.fail _ (bad_failed (bad_sw (by decide))) _ r.consumed id (.inl rfl), rfl⟩))

theorem genAuth_wp (hx : x.Ok) :
    wp A (genAuth x i) (fun a f' r' => GAEff A x i f r (.done a) r' ∧ f' = f)
      (fun a f' r' => GAEff A x i f r (.done a) r' ∧ f' = f) (fun f' r' => GAEff A x i f r .cut r' ∧ f' = f) f r := by
  unfold genAuth
  wps
  all_goals try bads
  next k hk h0 m hm h1 h2 =>
  have hs : SlotKey k m := by
    intro e
    subst e
    have h3 : i.c.p1 = 0 ∨ i.c.p1 = 3 := by
      by_cases h : i.c.p1 = 0
      · exact .inl h
      · by_cases h' : i.c.p1 = 3
        · exact .inr h'
        · exact absurd (by simp [h, h']) h0
    have h4 : keyType r.alg i.c.p1 = m.type := by simpa using h2
    rw [← h4]
    rcases h3 with h | h <;> rw [h] <;> rfl
  apply wp_parse'
  · intro t ht
    have ht := tlvs_ok ht
    have key : ∀ u, TouchEff i r m u → wp A (match caseOf t with
      | .sign p l => caseSign x i k m p l
      | .extReq => caseExtReq x i k
      | .extResp p l => caseExtResp x i k p l
      | .mutReq => caseMutReq x i k
      | .mutResp wp wl cp cl => caseMutResp x i k wp wl cp cl
      | .ecdh p l => caseEcdh x i k m p l
      | .invalid => do
        Cmd.mod authReset
        throw (.sw SW.wrongData)) (fun a f' r' => GAEff A x i f r (.done a) r' ∧ f' = f)
        (fun a f' r' => GAEff A x i f r (.done a) r' ∧ f' = f)
        (fun f' r' => GAEff A x i f r .cut r' ∧ f' = f) f { r with lastTouch := u } := fun u hu =>
      wp_mono (cases_wp hx hm hs ht) (fun _ _ _ h => ⟨.run k hk m hm u hu _ _ h.1, h.2⟩)
        (fun _ _ _ h => ⟨.run k hk m hm u hu _ _ h.1, h.2⟩) (fun _ _ h => ⟨.run k hk m hm u hu _ _ h.1, h.2⟩)
    have key0 := key r.lastTouch
    apply wp_ite <;> intro hto
    · have hto : m.touch = 2 ∨ m.touch = 3 := by simpa [or_comm] using hto
      apply wp_bind
      unfold touch
      apply wp_ite <;> intro hn
      · exact wp_pure (key0 (.inl ⟨hn, rfl⟩))
      · apply wp_bind; apply wp_get
        apply wp_ite <;> intro hc
        · simp only [Bool.and_eq_true, beq_iff_eq, decide_eq_true_eq] at hc
          exact wp_pure (key0 (.inr (.inr (.inr ⟨hc.1.1, hc.1.2, hc.2, rfl⟩))))
        · apply wp_ite <;> intro hp
          · exact wp_throw ⟨.bad _ (bad_sw (by decide)), rfl⟩
          · exact wp_mod (key _ (.inr (.inr (.inl ⟨hto, by simpa using hn, by simpa using hp, rfl⟩))))
    · exact key0 (.inr (.inl (by simp_all)))
  · exact fun sw h => ⟨.bad _ (bad_sw (tlvs_throws sw h)), rfl⟩
  · exact fun u h => ⟨.bad _ (.inl ⟨u, rfl⟩), rfl⟩

end Verif.Piv
