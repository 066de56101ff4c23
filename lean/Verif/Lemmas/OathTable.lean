import Verif.Spec.OathTable
import Verif.Lemmas.OathSpec
import Verif.Base.Moves
set_option linter.unusedSimpArgs false
/-
Lemmas for C113: arguments, and the answers of the commands.
-/
namespace Verif.Oath
open Verif.Spec.Oath Verif.Spec.OathTable Cmd

/-! ### Arguments -/

/-- The parser ends with this result. -/
def PEnds {α : Type} (m : PE SW α) (r : Except SW α) : Prop := m.run = .ok r

theorem PEnds.throw {α : Type} {e : SW} : PEnds (throw e : PE SW α) (.error e) := rfl
theorem PEnds.pure {α : Type} {a : α} : PEnds (Pure.pure a : PE SW α) (.ok a) := rfl
theorem PEnds.lift {α β : Type} {m : C α} {a : α} (h : m = .ok a) {f : α → PE SW β} {r : Except SW β} (hf : PEnds (f a) r) :
    PEnds ((liftM m : PE SW α) >>= f) r := by
  subst h; exact hf
theorem PEnds.lift1 {α : Type} {m : C α} {a : α} (h : m = .ok a) : PEnds (liftM m : PE SW α) (.ok a) := by
  subst h; rfl
theorem PEnds.bindOk {α β : Type} {m : PE SW α} {a : α} (h : PEnds m (.ok a)) {f : α → PE SW β} {r : Except SW β} (hf : PEnds (f a) r) :
    PEnds (m >>= f) r := by
  unfold PEnds at *
  rw [ExceptT.run_bind, h]; exact hf
theorem PEnds.bindErr {α β : Type} {m : PE SW α} {e : SW} (h : PEnds m (.error e)) {f : α → PE SW β} :
    PEnds (m >>= f) (.error e) := by
  unfold PEnds at *
  rw [ExceptT.run_bind, h]; rfl

theorem rd_drop {d t : Bytes} {k : Nat} {b : Byte} (h : d.drop k = b :: t) : rd d k = .ok b :=
  rd_eq_ok.mpr (getElem?_of_drop h)

theorem gt_iff {a b : Byte} : a > b ↔ b < a := Iff.rfl

/-- Checks of a name. -/
theorem nameBad {t l : Byte} (h : ¬ (t ≠ 0x71 ∨ l = 0 ∨ 64 < l)) : t = 0x71 ∧ ¬ l = 0 ∧ ¬ l > 64 := by
  simp only [not_or, ne_eq, Decidable.not_not] at h; exact h

theorem parseName_ends (d : Bytes) : PEnds (parseName d) ((name 2 d).map (·.1)) := by
  unfold parseName name
  simp only [PE.throw_bind, bne_iff_ne, ne_eq, Bool.or_eq_true, decide_eq_true_eq, beq_iff_eq]
  by_cases hl : d.length < 2
  · rw [if_pos hl, if_pos hl]; exact .throw
  rw [if_neg hl, if_neg hl]
  match d, hl with
  | [], hl => exact absurd (by simp) hl
  | [_], hl => exact absurd (by simp) hl
  | t :: l :: r, _ =>
    refine .lift (a := t) rfl ?_
    by_cases h1 : t = 0x71
    swap
    · rw [if_pos h1]
      dsimp only
      rw [if_pos (Or.inl h1)]
      exact .throw
    rw [if_neg (not_not.mpr h1)]
    refine .lift (a := l) rfl ?_
    dsimp only
    by_cases h2 : l > 64 ∨ l = 0
    · rw [if_pos h2, if_pos (Or.inr h2.symm)]; exact .throw
    rw [if_neg h2, if_neg (c := ¬ t = 113 ∨ l = 0 ∨ 64 < l) (fun h => by rcases h with h | h | h; exacts [h h1, h2 (.inr h), h2 (.inl h)])]
    by_cases h3 : r.length < l.toNat
    · rw [if_pos (by simp; omega), if_pos h3]; exact .throw
    · rw [if_neg (by simp; omega), if_neg h3]
      exact .lift1 (rdRange_eq_ok.mpr ⟨by simp; omega, rfl⟩)

theorem parseCalcName_ends (d : Bytes) : PEnds (parseCalcName d) ((name 3 d).map fun a => (a.1, 2 + a.1.length)) := by
  unfold parseCalcName name
  simp only [PE.throw_bind, bne_iff_ne, ne_eq, Bool.or_eq_true, decide_eq_true_eq, beq_iff_eq]
  by_cases hl : d.length < 3
  · rw [if_pos hl, if_pos (by omega)]; exact .throw
  rw [if_neg hl, if_neg (by omega)]
  match d, hl with
  | [], hl => exact absurd (by simp) hl
  | [_], hl => exact absurd (by simp) hl
  | t :: l :: r, _ =>
    refine .lift (a := t) rfl ?_
    by_cases h1 : t = 0x71
    swap
    · rw [if_pos h1]
      dsimp only
      rw [if_pos (Or.inl h1)]
      exact .throw
    rw [if_neg (not_not.mpr h1)]
    refine .lift (a := l) rfl ?_
    dsimp only
    by_cases h2 : l > 64 ∨ l = 0
    · rw [if_pos h2, if_pos (Or.inr h2.symm)]; exact .throw
    rw [if_neg h2, if_neg (c := ¬ t = 113 ∨ l = 0 ∨ 64 < l) (fun h => by rcases h with h | h | h; exacts [h h1, h2 (.inr h), h2 (.inl h)])]
    by_cases h3 : r.length < l.toNat
    · rw [if_pos (by simp; omega), if_pos h3]; exact .throw
    · rw [if_neg (by simp; omega), if_neg h3]
      refine .lift (rdRange_eq_ok.mpr ⟨by simp; omega, rfl⟩) ?_
      have : ((r.take l.toNat).length) = l.toNat := by simp; omega
      show PEnds _ (.ok (r.take l.toNat, 2 + (r.take l.toNat).length))
      rw [this]
      exact .pure

theorem parseChal_ends (d : Bytes) (off : Nat) (ho : off ≤ d.length) : PEnds (parseChal d off) (challenge (d.drop off)) := by
  unfold parseChal
  simp only [PE.throw_bind, bne_iff_ne, ne_eq, Bool.or_eq_true, decide_eq_true_eq, beq_iff_eq]
  have hlen : (d.drop off).length = d.length - off := by simp
  match hd : d.drop off with
  | [] => rw [hd] at hlen; rw [if_pos (by simp at hlen; omega)]; exact .throw
  | [_] => rw [hd] at hlen; rw [if_pos (by simp at hlen; omega)]; exact .throw
  | t :: l :: r =>
    rw [hd] at hlen
    simp only [List.length_cons] at hlen
    rw [if_neg (by omega)]
    refine .lift (rd_drop hd) ?_
    unfold challenge
    by_cases h1 : t = 0x74
    swap
    · rw [if_pos h1]
      dsimp only
      rw [if_pos (Or.inl h1)]
      exact .throw
    rw [if_neg (not_not.mpr h1)]
    refine .lift (rd_drop (drop_succ hd)) ?_
    dsimp only
    by_cases h2 : l > 8 ∨ l = 0
    · rw [if_pos h2, if_pos (Or.inr h2.symm)]; exact .throw
    rw [if_neg h2, if_neg (c := t ≠ 116 ∨ l = 0 ∨ 8 < l) (fun h => by rcases h with h | h | h; exacts [h h1, h2 (.inr h), h2 (.inl h)])]
    by_cases h3 : r.length < l.toNat
    · rw [if_pos (by omega), if_pos h3]; exact .throw
    · rw [if_neg (by omega), if_neg h3]
      refine .lift1 (rdRange_eq_ok.mpr ⟨by omega, ?_⟩)
      rw [drop_succ (drop_succ hd)]

theorem parseRename_ends (d : Bytes) : PEnds (parseRename d) (twoNames d) := by
  unfold parseRename twoNames name
  simp only [PE.throw_bind, bne_iff_ne, ne_eq, Bool.or_eq_true, decide_eq_true_eq, beq_iff_eq]
  by_cases hl : d.length < 3
  · rw [if_pos hl, if_pos (by omega)]; exact .throw
  rw [if_neg hl, if_neg (by omega)]
  match d, hl with
  | [], hl => exact absurd (by simp) hl
  | [_], hl => exact absurd (by simp) hl
  | t :: l :: r, _ =>
    refine .lift (a := t) rfl ?_
    by_cases h1 : t = 0x71
    swap
    · rw [if_pos h1]
      dsimp only
      rw [if_pos (Or.inl h1)]
      exact .throw
    rw [if_neg (not_not.mpr h1)]
    refine .lift (a := l) rfl ?_
    dsimp only
    by_cases h2 : l > 64 ∨ l = 0
    · rw [if_pos h2, if_pos (Or.inr h2.symm)]; exact .throw
    rw [if_neg h2, if_neg (c := ¬ t = 113 ∨ l = 0 ∨ 64 < l) (fun h => by rcases h with h | h | h; exacts [h h1, h2 (.inr h), h2 (.inl h)])]
    by_cases h3 : r.length < l.toNat
    · rw [if_pos (by simp; omega), if_pos h3]; exact .throw
    rw [if_neg h3]
    dsimp only
    have hdl : (r.drop l.toNat).length = r.length - l.toNat := by simp
    by_cases h4 : (r.drop l.toNat).length < 3
    · rw [if_pos h4, if_pos (by simp; omega)]; exact .throw
    rw [if_neg h4, if_neg (by simp; omega)]
    have hdr : (t :: l :: r).drop (2 + l.toNat) = r.drop l.toNat := by
      rw [Nat.add_comm]; rfl
    match hr : r.drop l.toNat, h4 with
    | [], h4 => exact absurd (by simp) h4
    | [_], h4 => exact absurd (by simp) h4
    | t' :: l' :: r', _ =>
      rw [hr] at hdr hdl
      simp only [List.length_cons] at hdl
      refine .lift (rd_drop hdr) ?_
      by_cases h5 : t' = 0x71
      swap
      · rw [if_pos h5]
        dsimp only
        rw [if_pos (Or.inl h5)]
        exact .throw
      rw [if_neg (not_not.mpr h5)]
      refine .lift (rd_drop (drop_succ hdr)) ?_
      dsimp only
      by_cases h6 : l' > 64 ∨ l' = 0
      · rw [if_pos h6, if_pos (Or.inr h6.symm)]; exact .throw
      rw [if_neg h6, if_neg (c := ¬ t' = 113 ∨ l' = 0 ∨ 64 < l') (fun h => by rcases h with h | h | h; exacts [h h5, h6 (.inr h), h6 (.inl h)])]
      by_cases h7 : r'.length < l'.toNat
      · rw [if_pos (by simp; omega), if_pos h7]; exact .throw
      rw [if_neg (by simp; omega), if_neg h7]
      refine .lift (rdRange_eq_ok.mpr ⟨by simp; omega, rfl⟩) ?_
      refine .lift (rdRange_eq_ok.mpr ⟨by simp; omega, rfl⟩) ?_
      rw [show 2 + l.toNat + 2 = (2 + l.toNat + 1) + 1 from rfl, drop_succ (drop_succ hdr)]
      exact .pure

theorem parseProp_ends (d : Bytes) (off : Nat) (ho : off ≤ d.length) :
    ∃ res, PEnds (parseProp d off) res ∧ match props (d.drop off) with
      | .error e => res = .error e
      | .ok (p, r) => ∃ off', res = .ok (p, off') ∧ off' ≤ d.length ∧ d.drop off' = r := by
  unfold parseProp
  simp only [PE.throw_bind, bne_iff_ne, ne_eq, beq_iff_eq]
  have hlen : (d.drop off).length = d.length - off := by simp
  match hd : d.drop off with
  | [] =>
    rw [hd] at hlen
    rw [if_neg (by simp at hlen; omega)]
    exact ⟨_, .pure, off, rfl, ho, hd⟩
  | t :: r =>
    rw [hd] at hlen
    simp only [List.length_cons] at hlen
    rw [if_pos (by omega)]
    unfold props
    simp only [ne_eq]
    by_cases h1 : t = 0x78
    swap
    · rw [if_pos h1]
      refine ⟨.ok (0, off), .lift (rd_drop hd) ?_, off, rfl, ho, hd⟩
      rw [if_neg h1]
      exact .pure
    · rw [if_neg (not_not.mpr h1)]
      cases r with
      | nil =>
        refine ⟨_, .lift (rd_drop hd) ?_, rfl⟩
        rw [if_pos h1, if_pos (by simp at hlen; omega)]
        exact .throw
      | cons p r =>
        simp only [List.length_cons] at hlen
        dsimp only
        by_cases h2 : 3 < p
        · rw [if_pos h2]
          refine ⟨_, .lift (rd_drop hd) ?_, rfl⟩
          rw [if_pos h1, if_neg (by omega)]
          refine .lift (rd_drop (drop_succ hd)) ?_
          rw [if_pos (by rw [propMask]; exact fun h => absurd h (UInt8.not_le.mpr h2))]
          exact .throw
        · rw [if_neg h2]
          refine ⟨.ok (p, off + 2), .lift (rd_drop hd) ?_, off + 2, rfl, by omega, drop_succ (drop_succ hd)⟩
          rw [if_pos h1, if_neg (by omega)]
          refine .lift (rd_drop (drop_succ hd)) ?_
          rw [if_neg (by rw [propMask, not_not]; exact UInt8.not_lt.mp h2)]
          exact .pure

theorem parseCounter_ends (d : Bytes) (a : Byte) (off : Nat) (ho : off ≤ d.length) :
    ∃ res, PEnds (parseCounter d a off) res ∧ match counter a (d.drop off) with
      | .error e => res = .error e
      | .ok (c, r) => ∃ off', res = .ok (c, off') ∧ off' ≤ d.length ∧ d.drop off' = r := by
  unfold parseCounter
  simp only [PE.throw_bind, bne_iff_ne, ne_eq, beq_iff_eq]
  have hlen : (d.drop off).length = d.length - off := by simp
  match hd : d.drop off with
  | [] =>
    rw [hd] at hlen
    rw [if_neg (by simp at hlen; omega)]
    exact ⟨_, .pure, off, rfl, ho, hd⟩
  | t :: r =>
    rw [hd] at hlen
    simp only [List.length_cons] at hlen
    rw [if_pos (by omega)]
    unfold counter
    simp only [ne_eq]
    by_cases h1 : t = 0x7A
    swap
    · rw [if_pos h1]
      refine ⟨.ok ([0, 0, 0, 0, 0, 0, 0, 0], off), .lift (rd_drop hd) ?_, off, rfl, ho, hd⟩
      rw [if_neg h1]
      exact .pure
    · rw [if_neg (not_not.mpr h1)]
      cases r with
      | nil =>
        refine ⟨_, .lift (rd_drop hd) ?_, rfl⟩
        rw [if_pos h1, if_pos (by simp at hlen; omega)]
        exact .throw
      | cons l r =>
        simp only [List.length_cons] at hlen
        dsimp only
        by_cases h2 : l = 4
        swap
        · rw [if_pos (Or.inl h2)]
          refine ⟨_, .lift (rd_drop hd) ?_, rfl⟩
          rw [if_pos h1, if_neg (by omega)]
          refine .lift (rd_drop (drop_succ hd)) ?_
          rw [if_pos h2]
          exact .throw
        by_cases h3 : a &&& 0xF0 = 0x10
        swap
        · rw [if_pos (Or.inr h3)]
          refine ⟨_, .lift (rd_drop hd) ?_, rfl⟩
          rw [if_pos h1, if_neg (by omega)]
          refine .lift (rd_drop (drop_succ hd)) ?_
          rw [if_neg (not_not.mpr h2), if_pos h3]
          exact .throw
        rw [if_neg (c := ¬ l = 4 ∨ ¬ a &&& 240 = 16) (fun h => h.elim (fun h => h h2) (fun h => h h3))]
        by_cases h4 : r.length < 4
        · rw [if_pos h4]
          refine ⟨_, .lift (rd_drop hd) ?_, rfl⟩
          rw [if_pos h1, if_neg (by omega)]
          refine .lift (rd_drop (drop_succ hd)) ?_
          rw [if_neg (not_not.mpr h2), if_neg (not_not.mpr h3), if_pos (by omega)]
          exact .throw
        · rw [if_neg h4]
          refine ⟨.ok ([0, 0, 0, 0] ++ r.take 4, off + 6), .lift (rd_drop hd) ?_, off + 6, rfl, by omega, ?_⟩
          · rw [if_pos h1, if_neg (by omega)]
            refine .lift (rd_drop (drop_succ hd)) ?_
            rw [if_neg (not_not.mpr h2), if_neg (not_not.mpr h3), if_neg (by omega)]
            refine .lift (rdRange_eq_ok.mpr ⟨by omega, rfl⟩) ?_
            rw [show off + 2 = off + 1 + 1 from rfl, drop_succ (drop_succ hd)]
            exact .pure
          · rw [show off + 6 = (off + 1 + 1) + 4 from rfl, ← List.drop_drop, drop_succ (drop_succ hd)]

theorem parsePut_ends (d : Bytes) : PEnds (parsePut d) (newCred d) := by
  unfold parsePut newCred name
  simp only [PE.throw_bind, bne_iff_ne, ne_eq, Bool.or_eq_true, Bool.and_eq_true, decide_eq_true_eq, beq_iff_eq]
  by_cases hl : d.length < 2
  · rw [if_pos hl, if_pos hl]; exact .throw
  rw [if_neg hl, if_neg hl]
  match d, hl with
  | [], hl => exact absurd (by simp) hl
  | [_], hl => exact absurd (by simp) hl
  | t :: l :: r, _ =>
    refine .lift (a := t) rfl ?_
    by_cases h1 : t = 0x71
    swap
    · rw [if_pos h1]
      dsimp only
      rw [if_pos (Or.inl h1)]
      exact .throw
    rw [if_neg (not_not.mpr h1)]
    refine .lift (a := l) rfl ?_
    dsimp only
    by_cases h2 : l > 64 ∨ l = 0
    · rw [if_pos h2, if_pos (Or.inr h2.symm)]; exact .throw
    rw [if_neg h2, if_neg (c := ¬ t = 113 ∨ l = 0 ∨ 64 < l) (fun h => by rcases h with h | h | h; exacts [h h1, h2 (.inr h), h2 (.inl h)])]
    by_cases h3 : r.length < l.toNat
    · rw [if_pos (by simp; omega), if_pos h3]; exact .throw
    rw [if_neg h3]
    have hdl : (r.drop l.toNat).length = r.length - l.toNat := by simp
    have hdr : (t :: l :: r).drop (2 + l.toNat) = r.drop l.toNat := by
      rw [Nat.add_comm]; rfl
    have hD : (t :: l :: r).length = r.length + 2 := rfl
    have hname : rdRange (t :: l :: r) 2 l.toNat = .ok (r.take l.toNat) := rdRange_eq_ok.mpr ⟨by simp; omega, rfl⟩
    generalize t :: l :: r = D at *
    match hr : r.drop l.toNat with
    | [] => rw [hr] at hdl; rw [if_pos (by simp at hdl; omega)]; exact .throw
    | [_] => rw [hr] at hdl; rw [if_pos (by simp at hdl; omega)]; exact .throw
    | [_, _] => rw [hr] at hdl; rw [if_pos (by simp at hdl; omega)]; exact .throw
    | [_, _, _] => rw [hr] at hdl; rw [if_pos (by simp at hdl; omega)]; exact .throw
    | [_, _, _, _] => rw [hr] at hdl; rw [if_pos (by simp at hdl; omega)]; exact .throw
    | t' :: kl :: a :: g :: s :: r' =>
      rw [hr] at hdr hdl
      simp only [List.length_cons] at hdl
      rw [if_neg (by omega)]
      dsimp only
      refine .lift (rd_drop hdr) ?_
      by_cases b1 : t' = 0x73
      swap
      · rw [if_pos b1, if_pos (Or.inl b1)]; exact .throw
      rw [if_neg (not_not.mpr b1)]
      refine .lift (rd_drop (drop_succ hdr)) ?_
      by_cases b2 : kl > 66 ∨ kl ≤ 2
      · rw [if_pos b2, if_pos (b2.elim (fun h => .inr (.inr (.inl h))) (fun h => .inr (.inl h)))]; exact .throw
      rw [if_neg b2]
      refine .lift (rd_drop (drop_succ (drop_succ hdr))) ?_
      by_cases b3 : a &&& 0xF0 = 0x10 ∨ a &&& 0xF0 = 0x20
      swap
      · rw [if_pos (not_or.mp b3), if_pos (.inr (.inr (.inr (.inl fun h => b3 h.1))))]; exact .throw
      rw [if_neg (fun h => b3.elim h.1 h.2)]
      by_cases b4 : a &&& 0x0F = 1 ∨ a &&& 0x0F = 2 ∨ a &&& 0x0F = 3
      swap
      · rw [if_pos (by simp only [not_or] at b4; exact ⟨⟨b4.1, b4.2.1⟩, b4.2.2⟩), if_pos (.inr (.inr (.inr (.inl fun h => b4 h.2))))]; exact .throw
      rw [if_neg (fun h => b4.elim h.1.1 (fun b => b.elim h.1.2 h.2))]
      refine .lift (rd_drop (drop_succ (drop_succ (drop_succ hdr)))) ?_
      by_cases b5 : g < 4 ∨ g > 8
      · rw [if_pos b5, if_pos (.inr (.inr (.inr (.inr b5))))]; exact .throw
      rw [if_neg b5, if_neg (by
        rintro (h | h | h | h | h)
        exacts [h b1, b2 (.inr h), b2 (.inl h), h ⟨b3, b4⟩, b5 h])]
      have hkl : 2 < kl.toNat := by
        have := not_or.mp b2
        have h := UInt8.not_le.mp this.2
        exact h
      have hsr : D.drop (2 + l.toNat + 2 + 2) = s :: r' := drop_succ (drop_succ (drop_succ (drop_succ hdr)))
      by_cases h5 : (s :: r').length < kl.toNat - 2
      · rw [if_pos h5]
        simp only [List.length_cons] at h5
        refine .bindOk (a := (0, 2 + l.toNat + 2 + kl.toNat)) ?_ ?_
        · unfold parseProp; rw [if_neg (by omega)]; exact .pure
        refine .bindOk (a := ([0, 0, 0, 0, 0, 0, 0, 0], 2 + l.toNat + 2 + kl.toNat)) ?_ ?_
        · unfold parseCounter; rw [if_neg (by omega)]; exact .pure
        rw [if_pos (by omega)]
        exact .throw
      rw [if_neg h5]
      simp only [List.length_cons] at h5
      have hrest : D.drop (2 + l.toNat + 2 + kl.toNat) = (s :: r').drop (kl.toNat - 2) := by
        rw [← hsr, List.drop_drop]
        congr 1
        omega
      obtain ⟨res, hp1, hp2⟩ := parseProp_ends D (2 + l.toNat + 2 + kl.toNat) (by omega)
      rw [hrest] at hp2
      cases hpr : props ((s :: r').drop (kl.toNat - 2)) with
      | error e =>
        rw [hpr] at hp2
        dsimp only at hp2 ⊢
        rw [hp2] at hp1
        exact .bindErr hp1
      | ok pr =>
        obtain ⟨p, rp⟩ := pr
        rw [hpr] at hp2
        dsimp only at hp2 ⊢
        obtain ⟨o1, rfl, ho1, hd1⟩ := hp2
        refine .bindOk hp1 ?_
        obtain ⟨res, hc1, hc2⟩ := parseCounter_ends D a o1 ho1
        rw [hd1] at hc2
        cases hcr : counter a rp with
        | error e =>
          rw [hcr] at hc2
          dsimp only at hc2 ⊢
          rw [hc2] at hc1
          exact .bindErr hc1
        | ok cr =>
          obtain ⟨c, rc⟩ := cr
          rw [hcr] at hc2
          dsimp only at hc2 ⊢
          obtain ⟨o2, rfl, ho2, hd2⟩ := hc2
          refine .bindOk hc1 ?_
          dsimp only
          have hl2 : D.length - o2 = rc.length := by rw [← hd2]; simp
          cases rc with
          | cons z rc =>
            rw [if_pos (by simp at hl2; omega)]
            exact .throw
          | nil =>
            rw [if_neg (by simp at hl2; omega)]
            refine .lift hname ?_
            refine .lift (rdRange_eq_ok.mpr ⟨by omega, rfl⟩) ?_
            rw [hsr]
            exact .pure

/-! ### Answers -/

theorem PEnds.ok {α : Type} {m : PE SW α} {r : Except SW α} (h : PEnds m r) {a : α} (ha : PE.Ok m a) : r = .ok a := by
  unfold PEnds at h; unfold PE.Ok at ha; rw [h] at ha; injection ha

theorem PEnds.err {α : Type} {m : PE SW α} {r : Except SW α} (h : PEnds m r) {e : SW} (he : m.run = .ok (.error e)) : r = .error e := by
  unfold PEnds at h; rw [h] at he; injection he

theorem map_ok {α β : Type} {r : Except SW α} {g : α → β} {b : β} (h : r.map g = .ok b) : ∃ a, r = .ok a ∧ g a = b := by
  cases r with
  | error e => cases h
  | ok a => injection h with h; exact ⟨a, rfl, h⟩

theorem map_err {α β : Type} {r : Except SW α} {g : α → β} {e : SW} (h : r.map g = .error e) : r = .error e := by
  cases r with
  | error e => injection h with h; rw [h]
  | ok a => cases h

section
variable {x : Ext} {i : In} {f f' : Flash} {r : Ram} {o : OathFile}

theorem nofail {P : Prop} (h : cutsOnly .fail) : P := absurd rfl h
theorem noio {P : Prop} (ho : f.oath = some o) (h : Io cutsOnly f) : P := by
  rcases h with h | h
  · rw [ho] at h; cases h
  · exact nofail h

/-- A new moving factor is stored under the same name. -/
theorem store_setChal (hv : Valid f) (ho : f.oath = some o) {j : Nat} {q : Rec} (hj : o.recs[j]? = some q) (hn : q.name ≠ []) (c : Bytes) :
    store (setChal f o j q c) = (store f).insert { q with chal := c } := by
  obtain ⟨_, _, h3⟩ := hv o ho
  funext n
  rw [store_set ho (f' := setChal f o j q c) rfl h3 hj rfl (.inr (.inl rfl)) n]
  unfold Store.insert
  by_cases h0 : n = []
  · rw [if_pos h0, if_neg (by rw [h0]; exact fun h => hn h.symm), h0]; rfl
  · rw [if_neg h0]
    by_cases h1 : n = q.name
    · rw [if_pos h1, if_pos h1]
    · rw [if_neg h1, if_neg h1, if_neg h1]

theorem put_table (hv : Valid f) (ho : f.oath = some o) :
    wp cutsOnly (put i) (fun a f' _ => Put i.c (store f) a (store f')) (fun a f' _ => Put i.c (store f) a (store f'))
      (fun f' _ => store f' = store f) f r := by
  unfold Put
  simp only [put, Cmd.throw_bind]
  apply wp_ite
  · intro h; apply wp_throw; rw [if_pos (p12_pos h)]; exact ⟨rfl, rfl⟩
  intro h12
  have h12 : ¬ (i.c.p1 ≠ 0 ∨ i.c.p2 ≠ 0) := by
    have := p12_neg h12
    rintro (h | h)
    exacts [h this.1, h this.2]
  simp only [if_neg h12]
  apply wp_bind
  apply wp_parse (parsePut_safe _)
  · intro q hq _
    rw [(parsePut_ends _).ok hq]
    obtain ⟨p, c, hq⟩ := (parsePut_ok _ _).mp hq
    have hnn := ne_nil_of_valid hq.name
    dsimp only
    apply wp_bind
    apply wp_nRecords
    · intro o' ho'
      rw [ho] at ho'; cases ho'
      apply wp_bind
      apply wp_putScan ho
      · intro u hn hu
        rw [(store_none_iff ho hnn).mpr hn]
        dsimp only
        apply wp_ite
        · intro h
          simp only [Bool.and_eq_true, beq_iff_eq, decide_eq_true_eq] at h; unfold maxRecords at h
          apply wp_throw
          rcases hu with ⟨_, he⟩ | ⟨t, ht, _⟩
          · exact .inl ⟨(full_iff hv ho).mpr ⟨he, by omega⟩, rfl, rfl⟩
          · have := lt_of_getElem? ht; omega
        · intro h
          simp only [Bool.and_eq_true, beq_iff_eq, decide_eq_true_eq] at h; unfold maxRecords at h
          apply wp_bind
          apply wp_updRec ho
          · apply wp_pure
            have hl : u < 100 ∨ u < o.recs.length := by
              rcases hu with ⟨hu, _⟩ | ⟨t, ht, _⟩
              · exact .inl (by omega)
              · exact .inr (lt_of_getElem? ht)
            refine .inr ⟨?_, rfl, (put_file hv ho hq hn hu hl rfl).2.2⟩
            rw [full_iff hv ho]
            rintro ⟨he, h100⟩
            rcases hu with ⟨hu, _⟩ | ⟨t, ht, htn⟩
            · omega
            · exact he t (List.mem_of_getElem? ht) htn
          · exact nofail
          · intro _; rfl
      · rintro ⟨t, ht, htn⟩
        cases hs : store f q.name with
        | none => exact absurd htn ((store_none_iff ho hnn).mp hs t ht)
        | some _ => exact ⟨rfl, rfl⟩
      · exact nofail
      · intro _; rfl
    · exact noio ho
    · intro _; rfl
  · intro sw hsw
    rw [(parsePut_ends _).err hsw]
    exact ⟨rfl, rfl⟩

theorem name_valid {d n r : Bytes} (h : name 2 d = .ok (n, r)) : ValidName n := by
  have := parseName_ends d
  rw [h] at this
  exact ((parseName_ok _ _).mp this).1

theorem delete_table (hv : Valid f) (ho : f.oath = some o) :
    wp cutsOnly (delete i) (fun a f' _ => Delete i.c (store f) a (store f')) (fun a f' _ => Delete i.c (store f) a (store f'))
      (fun f' _ => store f' = store f) f r := by
  unfold Delete
  simp only [delete, Cmd.throw_bind]
  apply wp_ite
  · intro h; apply wp_throw; rw [if_pos (p12_pos h)]; exact ⟨rfl, rfl⟩
  intro h12
  have h12 : ¬ (i.c.p1 ≠ 0 ∨ i.c.p2 ≠ 0) := by
    have := p12_neg h12
    rintro (h | h)
    exacts [h this.1, h this.2]
  simp only [if_neg h12]
  apply wp_bind
  apply wp_parse (parseName_safe _)
  · intro n hn _
    obtain ⟨⟨n', rest⟩, hd, rfl⟩ := map_ok ((parseName_ends _).ok hn)
    rw [hd]
    have hnn := ne_nil_of_valid (name_valid hd)
    dsimp only
    apply wp_bind
    apply wp_nRecords
    · intro o' ho'
      rw [ho] at ho'; cases ho'
      apply wp_bind
      apply wp_find ho
      · intro hn
        rw [(store_none_iff ho hnn).mpr hn]
        exact wp_throw ⟨rfl, rfl⟩
      · intro j q hj hjn
        subst hjn
        rw [store_of_get ho (hv o ho).2.2 hj hnn]
        dsimp only
        apply wp_bind
        apply passDeleteOath_eff
        · intro r' w hp
          apply wp_bind
          apply wp_updRec (o := o) (by rw [passFlash_oath]; exact ho)
          · apply wp_pure
            refine ⟨rfl, (del_file hv ho hj hnn ?_).2.2⟩
            rw [putRec_lt (lt_of_getElem? hj)]
          · exact nofail
          · intro _; exact store_congr (passFlash_oath ..)
        · intro _ h; exact nofail h
        · intro _ _; rfl
      · exact nofail
      · intro _; rfl
    · exact noio ho
    · intro _; rfl
  · intro sw hsw
    rw [map_err ((parseName_ends _).err hsw)]
    exact ⟨rfl, rfl⟩

theorem rename_table (hv : Valid f) (ho : f.oath = some o) :
    wp cutsOnly (rename i) (fun a f' _ => Rename i.c (store f) a (store f')) (fun a f' _ => Rename i.c (store f) a (store f'))
      (fun f' _ => store f' = store f) f r := by
  unfold Rename
  simp only [rename, Cmd.throw_bind]
  apply wp_ite
  · intro h; apply wp_throw; rw [if_pos (p12_pos h)]; exact ⟨rfl, rfl⟩
  intro h12
  have h12 : ¬ (i.c.p1 ≠ 0 ∨ i.c.p2 ≠ 0) := by
    have := p12_neg h12
    rintro (h | h)
    exacts [h this.1, h this.2]
  simp only [if_neg h12]
  apply wp_bind
  apply wp_parse (parseRename_safe _)
  · rintro ⟨a, b⟩ hn _
    rw [(parseRename_ends _).ok hn]
    obtain ⟨hva, hvb, _⟩ := (parseRename_ok _ _ _).mp hn
    dsimp only
    apply wp_bind
    apply wp_nRecords
    · intro o' ho'
      rw [ho] at ho'; cases ho'
      apply wp_bind
      apply wp_renameScan ho
      · intro hb ha
        rw [(store_none_iff ho (ne_nil_of_valid hvb)).mpr hb, (store_none_iff ho (ne_nil_of_valid hva)).mpr ha]
        rw [if_pos (by simp)]
        exact wp_throw ⟨rfl, rfl⟩
      · intro j q hb hj hja
        subst hja
        rw [(store_none_iff ho (ne_nil_of_valid hvb)).mpr hb, store_of_get ho (hv o ho).2.2 hj (ne_nil_of_valid hva)]
        rw [if_neg (by have := lt_of_getElem? hj; simp; omega)]
        dsimp only
        apply wp_bind
        apply wp_readRec ho (lt_of_getElem? hj)
        · intro q' hq'
          rw [hj] at hq'; cases hq'
          apply wp_bind
          apply wp_updRec ho
          · apply wp_pure
            rw [putRec_lt (lt_of_getElem? hj)]
            exact ⟨rfl, (ren_file hv ho hj rfl hva hvb hb rfl).2.2.2⟩
          · exact nofail
          · intro _; rfl
        · exact nofail
        · intro _; rfl
      · rintro ⟨t, ht, htn⟩
        cases hs : store f b with
        | none => exact absurd htn ((store_none_iff ho (ne_nil_of_valid hvb)).mp hs t ht)
        | some _ => exact ⟨rfl, rfl⟩
      · exact nofail
      · intro _; rfl
    · exact noio ho
    · intro _; rfl
  · intro sw hsw
    rw [(parseRename_ends _).err hsw]
    exact ⟨rfl, rfl⟩

theorem setDefault_table (hv : Valid f) (ho : f.oath = some o) :
    wp cutsOnly (setDefault i) (fun a f' _ => SetDefault i.c (store f) a (store f')) (fun a f' _ => SetDefault i.c (store f) a (store f'))
      (fun f' _ => store f' = store f) f r := by
  unfold SetDefault
  simp only [setDefault, Cmd.throw_bind]
  apply wp_ite
  · intro h
    apply wp_throw
    refine ⟨rfl, ?_⟩
    rw [if_pos (Or.inl (by simpa using h))]
  intro h1
  apply wp_ite
  · intro h
    apply wp_throw
    refine ⟨rfl, ?_⟩
    rw [if_pos (Or.inr (by simpa using h))]
  intro h2
  have h12 : ¬ ((i.c.p1 ≠ 1 ∧ i.c.p1 ≠ 2) ∨ (i.c.p2 ≠ 0 ∧ i.c.p2 ≠ 1)) := by
    rintro (h | h)
    · exact h1 (by simpa using h)
    · exact h2 (by simpa using h)
  simp only [if_neg h12]
  apply wp_bind
  apply wp_parse (parseName_safe _)
  · intro n hn _
    obtain ⟨⟨n', rest⟩, hd, rfl⟩ := map_ok ((parseName_ends _).ok hn)
    rw [hd]
    have hnn := ne_nil_of_valid (name_valid hd)
    dsimp only
    apply wp_bind
    apply wp_nRecords
    · intro o' ho'
      rw [ho] at ho'; cases ho'
      apply wp_bind
      apply wp_find ho
      · intro hn
        rw [(store_none_iff ho hnn).mpr hn]
        exact wp_throw ⟨rfl, rfl⟩
      · intro j q hj hjn
        subst hjn
        rw [store_of_get ho (hv o ho).2.2 hj hnn]
        dsimp only
        apply wp_ite
        · intro h
          apply wp_throw
          refine ⟨rfl, ?_⟩
          rw [if_pos (by simpa [Totp] using h)]
        intro h
        have ht : ¬ Totp q := by simpa [Totp] using h
        apply wp_bind
        apply wp_mod
        apply wp_bind
        apply wp_get
        apply wp_bind
        apply wp_wrOr
        · intro f' hf
          cases hf
          exact wp_pure ⟨store_congr rfl, by rw [if_neg ht]⟩
        · intro hf; cases hf
        · exact nofail
        · intro _; rfl
      · exact nofail
      · intro _; rfl
    · exact noio ho
    · intro _; rfl
  · intro sw hsw
    rw [map_err ((parseName_ends _).err hsw)]
    exact ⟨rfl, rfl⟩

theorem name3_valid {d n r : Bytes} (h : name 3 d = .ok (n, r)) : ValidName n ∧ 2 + n.length ≤ d.length ∧ d.drop (2 + n.length) = r := by
  unfold name at h
  split at h
  · cases h
  · split at h
    · rename_i t l r' _
      split at h
      · cases h
      · split at h
        · cases h
        · rename_i hb hr
          cases h
          have hl : (r'.take l.toNat).length = l.toNat := by simp; omega
          refine ⟨?_, ?_, ?_⟩
          · refine validOf hl ?_ ?_
            · intro h; exact hb (.inr (.inr h))
            · intro h; exact hb (.inr (.inl h))
          · rw [hl]; simp; omega
          · rw [hl, Nat.add_comm]; rfl
    · cases h

theorem calculate_table (hx : GoodHmac x) (hv : Valid f) (ho : f.oath = some o) :
    wp cutsOnly (calculate x i) (fun a f' _ => Calculate x i (store f) a (store f')) (fun a f' _ => Calculate x i (store f) a (store f'))
      (fun f' _ => store f' = store f) f r := by
  unfold Calculate
  simp only [calculate, Cmd.throw_bind]
  apply wp_ite
  · intro h; apply wp_throw; rw [if_pos (by simpa using h)]; exact ⟨rfl, rfl⟩
  intro h12
  have h12 : ¬ (i.c.p1 ≠ 0 ∨ (i.c.p2 ≠ 0 ∧ i.c.p2 ≠ 1)) := fun h => h12 (by simpa using h)
  have hp2 : (i.c.p2 != 0) = (i.c.p2 == 1) := by
    simp only [not_or, not_and, ne_eq, Decidable.not_not] at h12
    by_cases h : i.c.p2 = 0
    · rw [h]; rfl
    · rw [h12.2 h]; rfl
  simp only [if_neg h12]
  apply wp_bind
  apply wp_parse (parseCalcName_safe _)
  · rintro ⟨n, off⟩ hn _
    obtain ⟨⟨n', rest⟩, hd, he⟩ := map_ok ((parseCalcName_ends _).ok hn)
    cases he
    rw [hd]
    obtain ⟨hvn, hol, hrest⟩ := name3_valid hd
    have hnn := ne_nil_of_valid hvn
    dsimp only
    apply wp_bind
    apply wp_nRecords
    · intro o' ho'
      rw [ho] at ho'; cases ho'
      apply wp_bind
      apply wp_find ho
      · intro hn
        rw [(store_none_iff ho hnn).mpr hn]
        exact wp_throw ⟨rfl, rfl⟩
      · intro j q hj hjn
        subst hjn
        rw [store_of_get ho (hv o ho).2.2 hj hnn]
        have hw : WfRec q := (hv o ho).2.1 q (List.mem_of_getElem? hj)
        dsimp only
        apply wp_ite
        · intro h
          apply wp_throw
          rw [if_pos (by simpa [NeedsTouch, and_assoc] using h)]
          exact ⟨rfl, rfl⟩
        intro ht
        have ht : ¬ (NeedsTouch q ∧ i.nfc = false ∧ i.touch = false) := fun h => ht (by simpa [NeedsTouch, and_assoc] using h)
        simp only [if_neg ht]
        apply wp_bind
        simp only [factor, Cmd.throw_bind, beq_iff_eq]
        apply wp_ite
        · intro htot
          have htot : Totp q := htot
          simp only [if_pos htot]
          have hce := parseChal_ends i.c.data (2 + q.name.length) hol
          rw [hrest] at hce
          apply wp_bind
          apply wp_parse (parseChal_safe _ _)
          · intro c hc _
            rw [hce.ok hc]
            dsimp only
            apply wp_bind
            apply wp_enforce ho hj
            · intro hi
              rw [if_neg (by simp)]
              apply wp_pure
              apply wp_bind
              apply wp_mem (answer_eq hx _ _ _)
              apply wp_pure
              rw [if_neg hi, hp2]
              exact ⟨rfl, rfl⟩
            · intro hi hbad
              rw [if_pos (by simp)]
              apply wp_throw
              rw [if_pos hi, if_neg]
              · exact ⟨rfl, rfl⟩
              · rintro ⟨hl, hle⟩
                apply hbad
                refine ⟨hl, ?_⟩
                cases hm : memcmpGt q.chal c with
                | false => rfl
                | true => have := (memcmpGt_iff (by rw [hw.chal, hl])).mp hm; omega
            · intro hi hl hm
              rw [if_neg (by simp)]
              apply wp_pure
              apply wp_bind
              apply wp_mem (answer_eq hx _ _ _)
              apply wp_pure
              rw [if_pos hi, if_pos ⟨hl, le_of_memcmp hw.chal hl hm⟩, hp2]
              exact ⟨rfl, store_setChal hv ho hj hnn c⟩
            · intro _ _ _ h; exact nofail h
            · intro _; rfl
          · intro sw hsw
            rw [hce.err hsw]
            exact ⟨rfl, rfl⟩
        · intro htot
          have htot : ¬ Totp q := htot
          have hh : Hotp q := hw.type.resolve_right htot
          simp only [if_neg htot]
          apply wp_ite
          swap
          · intro h; exact absurd hh h
          intro _
          cases hc : increaseCounter q.chal with
          | none =>
            apply wp_throw
            rw [if_pos (by rw [← hw.chal]; exact increaseCounter_none.mp hc)]
            exact ⟨rfl, rfl⟩
          | some c =>
            have hcs := increaseCounter_some hc
            have hne : ¬ num q.chal + 1 = 256 ^ 8 := by
              rw [← hw.chal, ← increaseCounter_none, hc]; exact nofun
            simp only [if_neg hne]
            apply wp_bind
            apply wp_updChal ho hj
            · intro _
              apply wp_pure
              apply wp_bind
              apply wp_mem (answer_eq hx _ _ _)
              apply wp_pure
              rw [hp2]
              exact ⟨c, by rw [hcs.1, hw.chal], hcs.2, rfl, store_setChal hv ho hj hnn c⟩
            · intro h; exact nofail h
            · intro _; rfl
      · exact nofail
      · intro _; rfl
    · exact noio ho
    · intro _; rfl
  · intro sw hsw
    rw [map_err ((parseCalcName_ends _).err hsw)]
    exact ⟨rfl, rfl⟩

end

/-! ### The file stays -/

/-- The file of credentials is not lost. -/
def Stays (f f' : Flash) : Prop := f.oath ≠ none → f'.oath ≠ none

instance : PreOrd Stays := ⟨fun _ h => h, fun h h' h0 => h' (h h0)⟩

variable {x : Ext} {i : In}

theorem map_stay {g : OathFile → Flash} {f f' : Flash} (h : Option.map g f.oath = some f') (hg : ∀ o, (g o).oath ≠ none) : Stays f f' := by
  obtain ⟨o, ho, rfl⟩ := Option.map_eq_some_iff.mp h
  exact fun _ => hg o

theorem updPass_stay {r : Ram} {f f' : Flash} (h : updPass r f = some f') : Stays f f' := by
  unfold updPass at h; cases h; exact fun h => h

/-- Closes the writes. -/
macro "sy1" : tactic => `(tactic| (intro f f' h; first
  | exact updPass_stay h
  | exact map_stay h (fun _ => nofun)
  | (cases h; exact fun _ => nofun)))

theorem putScan_stay {name : Bytes} {n j u k : Nat} : Moves Stays (putScan name n j u k) := by
  induction k generalizing j u with
  | zero => unfold putScan; mvs (fail)
  | succ k ih => unfold putScan readRec; mvs (with_reducible exact ih)
theorem renameScan_stay {a b : Bytes} {n j u k : Nat} : Moves Stays (renameScan a b n j u k) := by
  induction k generalizing j u with
  | zero => unfold renameScan; mvs (fail)
  | succ k ih => unfold renameScan readRec; mvs (with_reducible exact ih)
theorem find_stay {name : Bytes} {j k : Nat} : Moves Stays (find name j k) := by
  induction k generalizing j with
  | zero => unfold find; mvs (fail)
  | succ k ih => unfold find readRec; mvs (with_reducible exact ih)
theorem listLoop_stay {n le k : Nat} {out : Bytes} : Moves Stays (listLoop n le k out) := by
  induction k generalizing out with
  | zero => unfold listLoop; mvs (fail)
  | succ k ih => unfold listLoop readRec; mvs (with_reducible exact ih)
theorem enforce_stay {j : Nat} {q : Rec} {c : Bytes} : Moves Stays (enforceIncreasing j q c) := by
  unfold enforceIncreasing; mvs sy1
theorem calcOne_stay {t : Bool} {j : Nat} {q : Rec} {c : Bytes} : Moves Stays (calcOne x t j q c) := by
  unfold calcOne; mvs (first | with_reducible exact enforce_stay | sy1)
theorem calcLoop_stay {n le k : Nat} {out : Bytes} : Moves Stays (calcLoop x n le k out) := by
  induction k generalizing out with
  | zero => unfold calcLoop; mvs (fail)
  | succ k ih => unfold calcLoop readRec; mvs (first | with_reducible exact ih | with_reducible exact calcOne_stay)
theorem calcStart_stay : Moves Stays (calcStart i) := by
  unfold calcStart; mvs (fail)
theorem factor_stay {off j : Nat} {q : Rec} : Moves Stays (factor i off j q) := by
  unfold factor; mvs (first | with_reducible exact enforce_stay | sy1)
theorem nRecords_stay : Moves Stays nRecords := by unfold nRecords; mvs (fail)

/-- Closes the calls. -/
macro "sy2" : tactic => `(tactic| first
  | with_reducible exact nRecords_stay
  | with_reducible exact putScan_stay
  | with_reducible exact find_stay
  | with_reducible exact renameScan_stay
  | with_reducible exact listLoop_stay
  | with_reducible exact calcLoop_stay
  | with_reducible exact calcStart_stay
  | with_reducible exact factor_stay
  | sy1)

theorem put_stay : Moves Stays (put i) := by unfold put; mvs sy2
theorem rename_stay : Moves Stays (rename i) := by unfold rename readRec; mvs sy2
theorem list_stay : Moves Stays (list i) := by unfold list; mvs sy2
theorem calculate_stay : Moves Stays (calculate x i) := by unfold calculate; mvs sy2
theorem calculateAll_stay : Moves Stays (calculateAll x i) := by unfold calculateAll; mvs sy2
theorem sendRemaining_stay : Moves Stays (sendRemaining x i) := by
  unfold sendRemaining; mvs (first | with_reducible exact list_stay | with_reducible exact calculateAll_stay)
theorem select_stay : Moves Stays (select i) := by unfold select; mvs sy2
theorem setCode_stay : Moves Stays (setCode x i) := by unfold setCode; mvs sy2
theorem validate_stay : Moves Stays (validate x i) := by unfold validate; mvs sy2
theorem install_stay {b : Bool} {rnd : Bytes} : Moves Stays (install b rnd) := by unfold install; mvs sy2

theorem passDel_stay {o : Nat} : Moves Stays (passDeleteOath o) := by unfold passDeleteOath; mvs sy2
theorem delete_stay : Moves Stays (delete i) := by unfold delete; mvs (first | with_reducible exact passDel_stay | sy2)
theorem setDefault_stay : Moves Stays (setDefault i) := by unfold setDefault; mvs sy2
theorem passWrite_stay {c : Verif.Apdu.Capdu} : Moves Stays (passWrite c) := by unfold passWrite; mvs sy2
theorem passInstall_stay {b : Bool} : Moves Stays (passInstall b) := by unfold passInstall; mvs sy2
theorem passRead_stay : Moves Stays passRead := by unfold passRead; mvs (fail)
theorem byOffset_stay {o : Nat} : Moves Stays (calculateByOffset x o) := by unfold calculateByOffset; mvs sy2
theorem touch_stay {b : Bool} : Moves Stays (handleTouch x b) := by
  unfold handleTouch; mvs (first | with_reducible exact byOffset_stay | sy2)

theorem process_stay : Moves Stays (process x i) := by
  unfold process
  mvs (first
    | with_reducible exact put_stay
    | with_reducible exact delete_stay
    | with_reducible exact setDefault_stay
    | with_reducible exact rename_stay
    | with_reducible exact list_stay
    | with_reducible exact calculate_stay
    | with_reducible exact calculateAll_stay
    | with_reducible exact sendRemaining_stay
    | with_reducible exact select_stay
    | with_reducible exact setCode_stay
    | with_reducible exact validate_stay)

theorem exec_remains {m : M Reply} (h : Moves Stays m) (s : St) (env : Env) : Stays s.flash (exec m s env).1.flash := by
  have h1 := h ⟨s.flash, s.ram, env⟩
  unfold exec runCmd
  cases hm : m.run ⟨s.flash, s.ram, env⟩ with
  | mk o w =>
    rw [hm] at h1
    cases o with
    | none => exact h1
    | some y => cases y <;> exact h1

/-- Nothing removes the file of credentials. -/
theorem step_stay (s : St) (op : Op) (env : Env) : Stays s.flash (step x s op env).1.flash := by
  cases op with
  | apdu i => exact exec_remains process_stay s env
  | touch b =>
    have h1 := touch_stay (x := x) (b := b) ⟨s.flash, s.ram, env⟩
    simp only [step, execTouch]
    revert h1
    rcases (handleTouch x b).run ⟨s.flash, s.ram, env⟩ with ⟨a, w⟩
    rcases a with _ | (e | b) <;> exact fun h => h
  | passRead => exact exec_remains passRead_stay s env
  | passWrite c => exact exec_remains passWrite_stay s env
  | install b rnd => exact exec_remains install_stay s env
  | passInstall b => exact exec_remains passInstall_stay s env
  | powerOff => exact fun h => h
  | boot => exact fun h => h

/-- The whole table. -/
theorem process_table {f : Flash} {r : Ram} {o : OathFile} (hx : GoodHmac x) (hv : Valid f) (ho : f.oath = some o) (hl : Listed i.c.ins) :
    wp cutsOnly (process x i) (fun a f' _ => Answer x r.validated i (store f) a (store f'))
      (fun a f' _ => Answer x r.validated i (store f) a (store f')) (fun f' _ => store f' = store f) f r := by
  have h4 : i.c.ins ≠ 0xA4 := by rcases hl with h | h | h | h | h <;> rw [h] <;> decide
  have h3 : i.c.ins ≠ 0xA3 := by rcases hl with h | h | h | h | h <;> rw [h] <;> decide
  simp only [process, Cmd.throw_bind, beq_iff_eq, bne_iff_ne, ne_eq]
  apply wp_bind
  apply wp_get
  unfold Answer
  cases hval : r.validated with
  | false =>
    rw [if_pos (by simp [h3, h4])]
    apply wp_throw
    rw [if_pos rfl]
    exact ⟨rfl, rfl⟩
  | true =>
    rw [if_neg (by simp)]
    simp only [if_neg (show ¬ true = false by decide)]
    rcases hl with h | h | h | h | h
    all_goals simp only [h, ↓reduceIte, show ∀ a b : UInt8, (a = b) = (a.toNat = b.toNat) from fun a b => propext UInt8.toNat_inj.symm, UInt8.reduceToNat, Nat.reduceEqDiff]
    · exact put_table hv ho
    · exact delete_table hv ho
    · exact rename_table hv ho
    · exact setDefault_table hv ho
    · exact calculate_table hx hv ho

end Verif.Oath
