import Verif.Lemmas.OathParse
set_option linter.unusedSimpArgs false
namespace Verif.Oath
open Verif.Spec.Oath

theorem num_append (a b : Bytes) : num (a ++ b) = num a * 256 ^ b.length + num b := by
  induction a with
  | nil => simp [num]
  | cons c a ih =>
    simp only [List.cons_append, num, ih, List.length_append, Nat.pow_add]
    rw [Nat.add_mul, Nat.mul_assoc]; omega

theorem num_snoc (a : Bytes) (b : Byte) : num (a ++ [b]) = num a * 256 + b.toNat := by
  rw [num_append]; simp [num]

theorem num_lt (a : Bytes) : num a < 256 ^ a.length := by
  induction a with
  | nil => simp [num]
  | cons b a ih =>
    have := b.toNat_lt
    simp only [num, List.length_cons, Nat.pow_succ]
    have h1 : b.toNat * 256 ^ a.length + 256 ^ a.length ≤ 256 * 256 ^ a.length := by
      rw [← Nat.succ_mul]; exact Nat.mul_le_mul_right _ (by omega)
    omega

theorem num_inj {a b : Bytes} (hl : a.length = b.length) (h : num a = num b) : a = b := by
  induction a generalizing b with
  | nil => cases b with
    | nil => rfl
    | cons => simp at hl
  | cons x a ih =>
    cases b with
    | nil => simp at hl
    | cons y b =>
      simp only [List.length_cons, Nat.add_right_cancel_iff] at hl
      simp only [num, hl] at h
      have h1 := num_lt a
      have h2 := num_lt b
      rw [hl] at h1
      have hx : x.toNat = y.toNat := by
        have e1 : (x.toNat * 256 ^ b.length + num a) / 256 ^ b.length = x.toNat := by
          rw [Nat.mul_comm, Nat.mul_add_div (Nat.pow_pos (by omega)), Nat.div_eq_of_lt h1]; rfl
        have e2 : (y.toNat * 256 ^ b.length + num b) / 256 ^ b.length = y.toNat := by
          rw [Nat.mul_comm, Nat.mul_add_div (Nat.pow_pos (by omega)), Nat.div_eq_of_lt h2]; rfl
        rw [← e1, ← e2, h]
      rw [hx] at h
      have := ih hl (by omega)
      rw [UInt8.toNat_inj] at hx
      rw [hx, this]

theorem memcmpGt_iff {a b : Bytes} (hl : a.length = b.length) :
    memcmpGt a b = true ↔ num b < num a := by
  induction a generalizing b with
  | nil => cases b with
    | nil => simp [memcmpGt, num]
    | cons => simp at hl
  | cons x a ih =>
    cases b with
    | nil => simp at hl
    | cons y b =>
      simp only [List.length_cons, Nat.add_right_cancel_iff] at hl
      simp only [memcmpGt, num, hl]
      have h1 := num_lt a
      have h2 := num_lt b
      rw [hl] at h1
      have hp : 0 < 256 ^ b.length := Nat.pow_pos (by omega)
      by_cases hxy : x = y
      · subst hxy
        simp only [beq_self_eq_true, if_true]
        rw [ih hl]; omega
      · have hne : x.toNat ≠ y.toNat := fun h => hxy (UInt8.toNat_inj.mp h)
        rw [if_neg (by simpa using hxy), decide_eq_true_eq, gt_iff_lt, UInt8.lt_iff_toNat_lt]
        constructor
        · intro h
          have : (y.toNat + 1) * 256 ^ b.length ≤ x.toNat * 256 ^ b.length :=
            Nat.mul_le_mul_right _ h
          rw [Nat.succ_mul] at this; omega
        · intro h
          apply Classical.byContradiction
          intro hn
          have : (x.toNat + 1) * 256 ^ b.length ≤ y.toNat * 256 ^ b.length :=
            Nat.mul_le_mul_right _ (by omega)
          rw [Nat.succ_mul] at this; omega

/-- The increment on the reversed bytes is plus one with carry-out. -/
theorem incRev_spec (a : Bytes) : (incRev a).1.length = a.length ∧
    num (incRev a).1.reverse + (if (incRev a).2 then 256 ^ a.length else 0) = num a.reverse + 1 := by
  induction a with
  | nil => simp [incRev, num]
  | cons b a ih =>
    by_cases h : b + 1 = 0
    · have hb : b.toNat = 255 := by
        have := congrArg UInt8.toNat h
        rw [UInt8.toNat_add] at this
        have := b.toNat_lt
        simp at *; omega
      have e : incRev (b :: a) = (0 :: (incRev a).1, (incRev a).2) := by simp [incRev, h]
      rw [e]
      refine ⟨by simp [ih.1], ?_⟩
      simp only [List.reverse_cons, num_snoc, List.length_cons, Nat.pow_succ, hb]
      have := ih.2
      split at this <;> split <;> simp_all <;> omega
    · have hb : (b + 1).toNat = b.toNat + 1 := by
        rw [UInt8.toNat_add]
        have := b.toNat_lt
        have h' : (b + 1).toNat ≠ 0 := fun h' => h (UInt8.toNat_inj.mp h')
        rw [UInt8.toNat_add] at h'
        simp at *; omega
      have e : incRev (b :: a) = ((b + 1) :: a, false) := by simp [incRev, h]
      rw [e]
      refine ⟨rfl, ?_⟩
      simp only [List.reverse_cons, num_snoc, hb]
      simp; omega

theorem increaseCounter_some {a c : Bytes} (h : increaseCounter a = some c) :
    c.length = a.length ∧ num c = num a + 1 := by
  have hs := incRev_spec a.reverse
  unfold increaseCounter at h
  rcases hr : incRev a.reverse with ⟨r, k⟩
  rw [hr] at h hs
  cases k with
  | true => cases h
  | false => cases h; simp at hs ⊢; exact hs

theorem increaseCounter_none {a : Bytes} : increaseCounter a = none ↔ num a + 1 = 256 ^ a.length := by
  have hs := incRev_spec a.reverse
  unfold increaseCounter
  rcases hr : incRev a.reverse with ⟨r, k⟩
  rw [hr] at hs
  cases k with
  | true =>
    simp at hs ⊢
    have := num_lt a
    omega
  | false =>
    simp at hs ⊢
    have := num_lt r.reverse
    simp [hs.1] at this
    omega

theorem beVal_eq (b : Bytes) : beVal b = num b := by
  have h : ∀ a, b.foldl (fun a x => a * 256 + x.toNat) a = a * 256 ^ b.length + num b := by
    induction b with
    | nil => intro a; simp [num]
    | cons c b ih =>
      intro a
      simp only [List.foldl_cons, ih, num, List.length_cons, Nat.pow_succ]
      rw [Nat.add_mul, Nat.mul_assoc, Nat.mul_comm (256 ^ b.length) 256]; omega
  have := h 0
  simpa [beVal] using this

theorem be4_num {b : Bytes} (h : b.length = 4) : be4 (num b) = b := by
  match b, h with
  | [p, q, r, s], _ =>
    have h1 := p.toNat_lt
    have h2 := q.toNat_lt
    have h3 := r.toNat_lt
    have h4 := s.toNat_lt
    have e : num [p, q, r, s] = p.toNat * 2 ^ 24 + q.toNat * 2 ^ 16 + r.toNat * 2 ^ 8 + s.toNat := by
      simp [num]; omega
    simp only [be4, e]
    congr 1
    · apply UInt8.toNat_inj.mp; simp; omega
    congr 1
    · apply UInt8.toNat_inj.mp; simp; omega
    congr 1
    · apply UInt8.toNat_inj.mp; simp; omega
    · congr 1
      apply UInt8.toNat_inj.mp; simp

theorem and7F : ∀ b : Byte, (b &&& 0x7F).toNat = b.toNat % 128 := by decide +kernel
theorem and0F : ∀ b : Byte, (b &&& 0x0F).toNat = b.toNat % 16 := by decide +kernel

theorem truncate_eq {dig : Bytes} (h : 20 ≤ dig.length) :
    truncate dig = .ok (be4 (dynTrunc dig)) := by
  have hne : dig ≠ [] := by intro e; simp [e] at h
  have hl : rd dig (dig.length - 1) = .ok (dig.getLast hne) := by
    rw [rd_ok (by omega)]; simp [List.getLast_eq_getElem]
  have hg : dig.getLast?.getD 0 = dig.getLast hne := by rw [List.getLast?_eq_some_getLast hne]; rfl
  unfold truncate
  rw [hl]
  simp only [ok_bind, and0F]
  generalize hk : (dig.getLast hne).toNat % 16 = k
  have hk' : k < 16 := by rw [← hk]; exact Nat.mod_lt _ (by omega)
  rw [rdRange_ok (by omega)]
  simp only [ok_bind, dynTrunc, hg, hk]
  have hlen : ((dig.drop k).take 4).length = 4 := by simp; omega
  match hd : (dig.drop k).take 4 with
  | [] => rw [hd] at hlen; simp at hlen
  | b :: rest =>
    rw [hd] at hlen
    simp only [pure_eq_ok, Except.ok.injEq]
    have hr : rest.length = 3 := by simpa using hlen
    rw [← be4_num (b := (b &&& 0x7F) :: rest) (by simp [hr])]
    congr 1
    simp only [num, hr, and7F]
    have := num_lt rest
    rw [hr] at this
    have := b.toNat_lt
    omega

theorem answer_eq {x : Ext} (hx : GoodHmac x) (t : Bool) (r : Rec) (c : Bytes) :
    answer x t r c = .ok (codeResp x t r c) := by
  unfold answer codeResp
  cases t with
  | true =>
    have : 20 ≤ (mac x r c).length := (hx _ _ _).1
    show (truncate (mac x r c) >>= fun t => pure ([0x76, 5, r.digits] ++ t)) = _
    rw [truncate_eq this]; rfl
  | false => simp [digest, mac]

theorem digitsOf_eq (d v : Nat) : digitsOf d v = ascii d v := by
  induction d generalizing v with
  | zero => rfl
  | succ d ih =>
    rw [digitsOf, ih]
    simp only [ascii, List.range_succ, List.map_append, List.map_cons, List.map_nil]
    congr 1
    · apply List.map_congr_left
      intro i hi
      have hi : i < d := by simpa using hi
      rw [Nat.div_div_eq_div_mul, ← Nat.pow_succ', show d + 1 - 1 - i = d - 1 - i + 1 by omega]
    · simp [Nat.add_comm]

end Verif.Oath
