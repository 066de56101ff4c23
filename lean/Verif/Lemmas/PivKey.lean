import Verif.Lemmas.PivTpl
import Verif.Lemmas.PivStep
/-
What the keys of the slots compute.
-/
set_option linter.unusedSimpArgs false
namespace Verif.Piv
open Cmd Verif.Spec.Piv Verif.KeyFile Verif.Spec.Key
open Verif.Key (KeyMat)

variable {A : Fault → Prop} {x : Ext} {i : In} {f : Flash} {r : Ram}

/-- If the reply is a success, its data are as described. -/
def Yields (P : Bytes → Prop) (a : Reply) : Prop := ∀ d, a = .resp d 0x9000 → P d

theorem yields_bad {P : Bytes → Prop} {a : Reply} (h : Bad (.done a)) : Yields P a := by
  intro d e
  obtain ⟨b, hb, h'⟩ := bad_failed h
  cases hb
  exact (h' d e).elim

/-- The answer of a signing key. -/
def SignedAs (x : Ext) (t : KTy) (k : KeyMat) (ch d : Bytes) : Prop :=
  ∃ sg, (t.isEcc = true ∨ t.isRsa = true) ∧
    (t.isRsa = true ∨ t.isWei = true ∨ ch.length = x.cr.priv t → Computes x t k ch sg) ∧
    d = answer t.isRsa (if t.isRsa then x.cr.sig t else sg.length) sg

theorem buf_val {pre ch post d : Bytes} {n : Nat} (hm : i.c.data = pre ++ ch ++ post)
    (h : buf i pre.length n = .ok d) : d.length = n ∧ d = (ch ++ (post ++ i.tail)).take n := by
  unfold buf at h
  rw [rdRange_eq_ok] at h
  obtain ⟨h1, h2⟩ := h
  have e : (i.c.data ++ i.tail).drop pre.length = ch ++ (post ++ i.tail) := by
    rw [hm]; simp [List.append_assoc, List.drop_left]
  rw [e] at h2
  refine ⟨?_, h2.symm⟩
  rw [← h2, ← e]
  simp at h1 ⊢
  omega

theorem readKey_val {sl : Slot} {k : KeyMat} {m : Meta} (hk : f.keys sl = some ⟨k, some m⟩) : wp A (readKey sl)
    (fun a f' r' => a = (k, m) ∧ f' = f ∧ r' = r) (fun e f' r' => e = ioErr ∧ f' = f ∧ r' = r ∧ A .fail)
    (fun f' r' => A .cut ∧ f' = f ∧ r' = r) f r := by
  unfold readKey
  wps
  all_goals simp_all

theorem isWei_not_rsa {t : KTy} (h : t.isWei = true) : t.isRsa = false := by cases t <;> first | rfl | cases h

theorem isRsa_not_wei {t : KTy} (h : t.isRsa = true) : t.isWei = false := by cases t <;> first | rfl | cases h

/-- Case 1: the key signs the challenge. -/
theorem sign_key {sl : Slot} {k : KeyMat} {m : Meta} {pre ch post : Bytes} (hk : f.keys sl = some ⟨k, some m⟩)
    (hm : i.c.data = pre ++ ch ++ post) :
    wp A (caseSign x i (.slot sl) m pre.length ch.length) (fun a _ _ => Yields (SignedAs x m.type k ch) a)
      (fun a _ _ => Yields (SignedAs x m.type k ch) a) (fun _ _ => True) f r := by
  unfold caseSign
  apply wp_bind; apply wp_mod
  apply wp_bind
  refine wp_mono secCheck_wp ?_ ?_ ?_
  · rintro _ f' r' ⟨rfl, rfl, h1, h2⟩
    apply wp_ite <;> intro hlen
    · exact wp_throw (yields_bad (bad_sw (by decide)))
    · simp only [Bool.or_eq_true, Bool.and_eq_true, decide_eq_true_eq, bne_iff_ne, ne_eq, not_or, not_and,
        Decidable.not_not, Nat.not_lt, gt_iff_lt] at hlen
      apply wp_bind
      refine wp_mono (readKey_val hk) ?_ ?_ ?_
      · rintro ⟨key, m'⟩ f'' r'' ⟨e, rfl, rfl⟩
        cases e
        apply wp_ite <;> intro ht
        · apply wp_bind
          apply wp_mem
          · intro d hd
            obtain ⟨hdl, hd⟩ := buf_val hm hd
            wps
            · exact yields_bad bad_io
            · next sg hsg =>
              intro d' e
              cases e
              refine ⟨sg, .inr ht, fun _ => ?_, ?_⟩
              · unfold Computes
                rw [if_pos ht]
                have := hlen.2 ht
                refine ⟨this, ?_⟩
                rw [← hsg, hd, ← this, List.take_left]
              · rw [if_pos ht]
                unfold answer
                rw [if_pos ht]
          · exact fun u _ => yields_bad (.inl ⟨u, rfl⟩)
        · apply wp_ite <;> intro ht'
          · apply wp_bind
            apply wp_mem
            · intro d hd
              obtain ⟨hdl, hd⟩ := buf_val hm hd
              wps
              · exact yields_bad bad_io
              · next sg hsg =>
                intro d' e
                cases e
                refine ⟨if m.type.isWei then x.cr.ansi (x.cr.priv m.type) sg else sg, .inl ht', fun hp => ?_, ?_⟩
                rotate_left
                · rw [if_neg ht]
                  unfold answer
                  rw [if_neg ht]
                · unfold Computes
                  rw [if_neg ht]
                  by_cases hw : m.type.isWei = true
                  · rw [if_pos hw]
                    refine ⟨hlen.1 hw, sg, ?_, by rw [if_pos hw]⟩
                    rw [← hsg, if_pos hw, hd, List.take_take, Nat.min_eq_left (hlen.1 hw), List.take_left]
                    rfl
                  · rw [if_neg hw]
                    rw [if_neg hw] at hsg ⊢
                    have : ch.length = x.cr.priv m.type := by
                      rcases hp with h | h | h
                      · exact absurd h ht
                      · exact absurd h hw
                      · exact h
                    rw [← hsg, hd, ← this, List.take_left]
            · exact fun u _ => yields_bad (.inl ⟨u, rfl⟩)
          · exact wp_throw (yields_bad bad_io)
      · rintro e f'' r'' ⟨rfl, rfl, rfl, _⟩
        exact yields_bad bad_io
      · exact fun _ _ _ => trivial
  · rintro e f' r' ⟨rfl, rfl, rfl⟩
    exact yields_bad (bad_sw (by decide))
  · exact fun _ _ h => h.elim

/-- The answer of a key agreement. -/
def AgreedAs (x : Ext) (t : KTy) (k : KeyMat) (pt d : Bytes) : Prop :=
  ∃ z, t ≠ .tdea ∧ AgreesOn x t k pt z ∧ d = answer false (x.cr.priv t) z

/-- Case 6: the key agrees on a secret with the point. -/
theorem ecdh_key {sl : Slot} {k : KeyMat} {m : Meta} {pre pt post : Bytes} (hk : f.keys sl = some ⟨k, some m⟩)
    (hm : i.c.data = pre ++ pt ++ post) :
    wp A (caseEcdh x i (.slot sl) m pre.length pt.length) (fun a _ _ => Yields (AgreedAs x m.type k pt) a)
      (fun a _ _ => Yields (AgreedAs x m.type k pt) a) (fun _ _ => True) f r := by
  unfold caseEcdh
  apply wp_bind; apply wp_mod
  apply wp_bind
  refine wp_mono secCheck_wp ?_ ?_ ?_
  · rintro _ f' r' ⟨rfl, rfl, h1, h2⟩
    apply wp_ite <;> intro ht
    · exact wp_throw (yields_bad (.inl ⟨_, rfl⟩))
    · apply wp_ite <;> intro hlen
      · exact wp_throw (yields_bad (bad_sw (by decide)))
      · have hlen : pt.length = x.cr.pub m.type + (if m.type.isWei then 1 else 0) := by simpa using hlen
        apply wp_bind
        refine wp_mono (readKey_val hk) ?_ ?_ ?_
        · rintro ⟨key, m'⟩ f'' r'' ⟨e, rfl, rfl⟩
          cases e
          apply wp_bind
          apply wp_mem
          · intro d hd
            wps
            · exact yields_bad bad_io
            · next z hz =>
              intro d' e
              cases e
              refine ⟨z, by simpa using ht, ?_, by simp [answer]⟩
              unfold AgreesOn
              by_cases hw : m.type.isWei = true
              · rw [if_pos hw] at hlen hd ⊢
                cases pt with
                | nil => simp at hlen
                | cons b q =>
                  refine ⟨b, q, rfl, by simpa using hlen, ?_⟩
                  have hd' : buf i (pre ++ [b]).length (x.cr.pub m.type) = .ok d := by simpa using hd
                  have := (buf_val (ch := q) (post := post) (by rw [hm]; simp) hd').2
                  rw [← hz, this]
                  have e : x.cr.pub m.type = q.length := by simp at hlen; omega
                  rw [e, List.take_left]
              · rw [if_neg hw] at hlen hd ⊢
                refine ⟨by simpa using hlen, ?_⟩
                have := (buf_val hm (by simpa using hd)).2
                rw [← hz, this]
                have e : x.cr.pub m.type = pt.length := by simp at hlen; omega
                rw [e, List.take_left]
          · exact fun u _ => yields_bad (.inl ⟨u, rfl⟩)
        · rintro e f'' r'' ⟨rfl, rfl, rfl, _⟩
          exact yields_bad bad_io
        · exact fun _ _ _ => trivial
  · rintro e f' r' ⟨rfl, rfl, rfl⟩
    exact yields_bad (bad_sw (by decide))
  · exact fun _ _ h => h.elim

theorem refOf_slot (sl : Slot) : refOf (slotId sl) = some (.slot sl) := by cases sl <;> rfl

theorem slotOf_slot (sl : Slot) : slotOf (slotId sl) = some sl := by cases sl <;> rfl

theorem slotOf_some {p : Byte} {sl : Slot} (h : slotOf p = some sl) : p = slotId sl := by
  by_cases h1 : p = 0x9A
  · subst h1; cases h; rfl
  by_cases h2 : p = 0x9B
  · subst h2; cases h
  by_cases h3 : p = 0x9C
  · subst h3; cases h; rfl
  by_cases h4 : p = 0x9D
  · subst h4; cases h; rfl
  by_cases h5 : p = 0x9E
  · subst h5; cases h; rfl
  by_cases h6 : p = 0x82
  · subst h6; cases h; rfl
  by_cases h7 : p = 0x83
  · subst h7; cases h; rfl
  · simp [slotOf, refOf, h1, h2, h3, h4, h5, h6, h7] at h

/-- What is known of a successful use of a slot. -/
def UsedAs (x : Ext) (i : In) (f : Flash) (a : Alg) (sl : Slot) (d : Bytes) : Prop :=
  ∃ k m l, HasKey f sl k m ∧ Template i.c.data l ∧ keyType a i.c.p1 = m.type ∧
    ((∃ ch, AsksSign l ch ∧ SignedAs x m.type k ch d) ∨ (∃ pt, AsksEcdh l pt ∧ AgreedAs x m.type k pt d))

theorem touch_any {c : Bool} : wp A (touch i c) (fun _ f' _ => f' = f) (fun a f' _ => Bad (.done a) ∧ f' = f)
    (fun _ _ => True) f r := by
  unfold touch
  wps
  all_goals first
    | exact ⟨bad_sw (by decide), rfl⟩
    | rfl

theorem cases_key {sl : Slot} {m : Meta} {k : KeyMat} {t : Tlvs} {l : List Item} {a : Alg} (hk : f.keys sl = some ⟨k, some m⟩) (hp : keyType a i.c.p1 = m.type)
    (hm : m.type ≠ .none) (ht : Template i.c.data l) (hloc : Loc i.c.data ⟨none, none, none, none⟩ t l) :
    wp A (match caseOf t with
    | .sign p l => caseSign x i (.slot sl) m p l
    | .extReq => caseExtReq x i (.slot sl)
    | .extResp p l => caseExtResp x i (.slot sl) p l
    | .mutReq => caseMutReq x i (.slot sl)
    | .mutResp wp wl cp cl => caseMutResp x i (.slot sl) wp wl cp cl
    | .ecdh p l => caseEcdh x i (.slot sl) m p l
    | .invalid => do
      Cmd.mod authReset
      throw (.sw SW.wrongData)) (fun b _ _ => Yields (UsedAs x i f a sl) b) (fun b _ _ => Yields (UsedAs x i f a sl) b)
      (fun _ _ => True) f r := by
  cases h : caseOf t with
  | sign p n =>
    obtain ⟨ch, pre, post, ha, rfl, rfl, hd⟩ := sign_of_case hloc h
    exact wp_mono (sign_key hk hd) (fun _ _ _ hy d e => ⟨k, m, l, ⟨hk, hm⟩, ht, hp, .inl ⟨ch, ha, hy d e⟩⟩)
      (fun _ _ _ hy d e => ⟨k, m, l, ⟨hk, hm⟩, ht, hp, .inl ⟨ch, ha, hy d e⟩⟩) (fun _ _ h => h)
  | extReq =>
    show wp _ (caseExtReq x i (.slot sl)) _ _ _ _ _
    unfold caseExtReq
    exact wp_bind (wp_mod (wp_ite (fun _ => wp_throw (yields_bad (bad_sw (by decide)))) (fun h => absurd rfl h)))
  | extResp p n =>
    show wp _ (caseExtResp x i (.slot sl) p n) _ _ _ _ _
    unfold caseExtResp
    apply wp_bind; apply wp_get
    apply wp_ite <;> intro h
    · exact wp_bind (wp_pure (wp_bind (wp_mod (wp_throw (yields_bad (bad_sw (by decide)))))))
    · simp at h
  | mutReq =>
    show wp _ (caseMutReq x i (.slot sl)) _ _ _ _ _
    unfold caseMutReq
    exact wp_bind (wp_mod (wp_ite (fun _ => wp_throw (yields_bad (bad_sw (by decide)))) (fun h => absurd rfl h)))
  | mutResp p n p' n' =>
    show wp _ (caseMutResp x i (.slot sl) p n p' n') _ _ _ _ _
    unfold caseMutResp
    apply wp_bind; apply wp_get
    apply wp_ite <;> intro h
    · exact wp_bind (wp_pure (wp_bind (wp_mod (wp_throw (yields_bad (bad_sw (by decide)))))))
    · simp at h
  | ecdh p n =>
    obtain ⟨pt, pre, post, ha, rfl, rfl, hd⟩ := ecdh_of_case hloc h
    exact wp_mono (ecdh_key hk hd) (fun _ _ _ hy d e => ⟨k, m, l, ⟨hk, hm⟩, ht, hp, .inr ⟨pt, ha, hy d e⟩⟩)
      (fun _ _ _ hy d e => ⟨k, m, l, ⟨hk, hm⟩, ht, hp, .inr ⟨pt, ha, hy d e⟩⟩) (fun _ _ h => h)
  | invalid => exact wp_bind (wp_mod (wp_throw (yields_bad (bad_sw (by decide)))))

theorem genAuth_key {sl : Slot} {a : Alg} (ha : r.alg = a) (hi : i.c.p2 = slotId sl) :
    wp A (genAuth x i) (fun b _ _ => Yields (UsedAs x i f a sl) b) (fun b _ _ => Yields (UsedAs x i f a sl) b)
      (fun _ _ => True) f r := by
  unfold genAuth
  apply wp_ite <;> intro h0
  · exact wp_throw (yields_bad (bad_sw (by decide)))
  apply wp_bind
  apply wp_mem
  · intro d0 hd0
    apply wp_ite <;> intro h1
    · exact wp_throw (yields_bad (bad_sw (by decide)))
    rw [hi, refOf_slot]
    apply wp_ite <;> intro h2
    · simp at h2
    apply wp_bind
    apply wp_rdOr
    · intro m hm
      simp only [metaOf] at hm
      obtain ⟨kf, hkf, hmi⟩ := Option.bind_eq_some_iff.mp hm
      obtain ⟨k, mi⟩ := kf
      simp only at hmi
      subst hmi
      apply wp_ite <;> intro h3
      · exact wp_throw (yields_bad (bad_sw (by decide)))
      have hmt : m.type ≠ .none := by simpa using h3
      apply wp_bind; apply wp_get
      apply wp_ite <;> intro h4
      · exact wp_throw (yields_bad (bad_sw (by decide)))
      apply wp_bind
      apply wp_parse'
      · intro t ht
        have hd0' : i.c.data[0]? = some 0x7C := by
          rw [rd_eq_ok] at hd0
          rw [hd0]; simpa using h1
        obtain ⟨l, hT, hloc⟩ := tlvs_inv ht hd0'
        apply wp_ite <;> intro h5
        · apply wp_bind
          refine wp_mono touch_any ?_ (fun _ _ _ h => yields_bad h.1) (fun _ _ _ => trivial)
          rintro _ f' r' rfl
          exact cases_key hkf (by rw [← ha]; simpa using h4) hmt hT hloc
        · exact cases_key hkf (by rw [← ha]; simpa using h4) hmt hT hloc
      · intro sw h; exact yields_bad (bad_sw (tlvs_throws _ h))
      · intro u _; exact yields_bad (.inl ⟨u, rfl⟩)
    · intro _; exact yields_bad bad_io
    · intro _; exact yields_bad bad_io
    · intro _; trivial
  · exact fun u _ => yields_bad (.inl ⟨u, rfl⟩)

end Verif.Piv
