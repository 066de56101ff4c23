import Verif.Spec.Apdu
set_option linter.unusedSimpArgs false
namespace Verif.Apdu
open Verif.Spec.Apdu

theorem toNat_ofNat8 (n : Nat) : (UInt8.ofNat n).toNat = n % 256 := by simp

theorem be16_be2 (n : Nat) : be16 (UInt8.ofNat (n / 256)) (UInt8.ofNat n) = n % 65536 := by
  simp only [be16, toNat_ofNat8]; omega

theorem be2_be16 (a b : Byte) : be2 (be16 a b) = [a, b] := by
  have ha := a.toNat_lt; have hb := b.toNat_lt
  simp only [be2, be16]
  have h1 : (a.toNat * 256 + b.toNat) / 256 = a.toNat := by omega
  rw [h1]
  have h2 : UInt8.ofNat (a.toNat * 256 + b.toNat) = b := by
    apply UInt8.toNat_inj.1; rw [toNat_ofNat8]; omega
  rw [h2]; simp

theorem be2_zero16 : be2 65536 = [0, 0] := by decide

theorem rdRange_append (l d r : Bytes) (n k : Nat) (h : l.length = n) (hk : d.length = k) :
    rdRange (l ++ d ++ r) n k = .ok d := by
  subst h; subst hk
  rw [rdRange_ok (by simp)]
  simp

/-- The decoder on a command of at least four bytes, as a function of what follows the header. -/
def tailDecode (cla ins p1 p2 : Byte) (t : Bytes) : Option Capdu :=
  match t with
  | [] => some ⟨cla, ins, p1, p2, [], 0⟩
  | [b] => some ⟨cla, ins, p1, p2, [], if b.toNat = 0 then 0x100 else b.toNat⟩
  | b :: t =>
    if b.toNat > 0 then
      if t.length = b.toNat then some ⟨cla, ins, p1, p2, t, 0x100⟩
      else if h : t.length = b.toNat + 1 then
        let le := (t.getLast (by intro h'; rw [h'] at h; simp at h)).toNat
        some ⟨cla, ins, p1, p2, t.dropLast, if le = 0 then 0x100 else le⟩
      else none
    else
      match t with
      | [x, y] => some ⟨cla, ins, p1, p2, [], if be16 x y = 0 then 0x10000 else be16 x y⟩
      | x :: y :: t =>
        let lc := be16 x y
        if lc = 0 then none
        else if t.length = lc then some ⟨cla, ins, p1, p2, t, 0x10000⟩
        else if t.length = lc + 2 then
          match t.drop lc with
          | [u, v] => some ⟨cla, ins, p1, p2, t.take lc, if be16 u v = 0 then 0x10000 else be16 u v⟩
          | _ => none
        else none
      | _ => none

theorem buildCapdu_short (cmd : Bytes) (h : cmd.length < 4) : buildCapdu cmd = .ok none := by
  simp [buildCapdu, h]

theorem buildCapdu_eq (cla ins p1 p2 : Byte) (t : Bytes) :
    buildCapdu (cla :: ins :: p1 :: p2 :: t) = .ok (tailDecode cla ins p1 p2 t) := by
  rcases t with _ | ⟨b, t⟩
  · simp [buildCapdu, rd, tailDecode]
  rcases t with _ | ⟨x, t⟩
  · simp [buildCapdu, rd, tailDecode]
  have hb := b.toNat_lt
  by_cases hb0 : b.toNat = 0
  · rcases t with _ | ⟨y, t⟩
    · simp [buildCapdu, rd, tailDecode, hb0]
    rcases t with _ | ⟨z, t⟩
    · simp [buildCapdu, rd, tailDecode, hb0]
    generalize hn : be16 x y = n
    by_cases hlc : n = 0
    · simp [buildCapdu, rd, tailDecode, hb0, hn, hlc]
    by_cases h1 : n = t.length + 1
    · have hr : rdRange (cla :: ins :: p1 :: p2 :: b :: x :: y :: z :: t) 7 (t.length + 1) =
          .ok (z :: t) := by
        rw [rdRange_ok (by simp; omega)]
        simp only [List.drop_succ_cons, List.drop_zero]
        rw [List.take_of_length_le (by simp)]
      subst h1
      have e : 7 + (t.length + 1) = t.length + 8 := by omega
      simp [buildCapdu, rd, tailDecode, hb0, hn, hr, e]
      repeat' split
      all_goals first | rfl | omega
    by_cases h2 : t.length = n + 1
    · have hr : rdRange (cla :: ins :: p1 :: p2 :: b :: x :: y :: z :: t) 7 n =
          .ok ((z :: t).take n) := by
        rw [rdRange_ok (by simp; omega)]
        simp only [List.drop_succ_cons, List.drop_zero]
      obtain ⟨u, v, huv⟩ : ∃ u v, (z :: t).drop n = [u, v] := by
        have hl : ((z :: t).drop n).length = 2 := by simp; omega
        match hd : (z :: t).drop n, hl with
        | [u, v], _ => exact ⟨u, v, rfl⟩
      have hu : (cla :: ins :: p1 :: p2 :: b :: x :: y :: z :: t)[7 + n]? = some u := by
        have := congrArg (·[0]?) huv
        simp only [List.getElem?_drop] at this
        rw [show 7 + n = n + 0 + 1 + 1 + 1 + 1 + 1 + 1 + 1 by omega]
        simp only [List.getElem?_cons_succ]
        exact this
      have hv : (cla :: ins :: p1 :: p2 :: b :: x :: y :: z :: t)[8 + n]? = some v := by
        have := congrArg (·[1]?) huv
        simp only [List.getElem?_drop] at this
        rw [show 8 + n = n + 1 + 1 + 1 + 1 + 1 + 1 + 1 + 1 by omega]
        simp only [List.getElem?_cons_succ]
        exact this
      have hu' : rd (cla :: ins :: p1 :: p2 :: b :: x :: y :: z :: t) (7 + n) = .ok u := by
        unfold rd; rw [hu]
      have hv' : rd (cla :: ins :: p1 :: p2 :: b :: x :: y :: z :: t) (8 + n) = .ok v := by
        unfold rd; rw [hv]
      have c0 : rd (cla :: ins :: p1 :: p2 :: b :: x :: y :: z :: t) 0 = .ok cla := rfl
      have c1 : rd (cla :: ins :: p1 :: p2 :: b :: x :: y :: z :: t) 1 = .ok ins := rfl
      have c2 : rd (cla :: ins :: p1 :: p2 :: b :: x :: y :: z :: t) 2 = .ok p1 := rfl
      have c3 : rd (cla :: ins :: p1 :: p2 :: b :: x :: y :: z :: t) 3 = .ok p2 := rfl
      have c4 : rd (cla :: ins :: p1 :: p2 :: b :: x :: y :: z :: t) 4 = .ok b := rfl
      have c5 : rd (cla :: ins :: p1 :: p2 :: b :: x :: y :: z :: t) 5 = .ok x := rfl
      have c6 : rd (cla :: ins :: p1 :: p2 :: b :: x :: y :: z :: t) 6 = .ok y := rfl
      have e1 : ¬ (n + 9 = 7 + n) := by omega
      have e2 : n + 9 = 9 + n := by omega
      simp [buildCapdu, tailDecode, hb0, hn, hlc, h2, huv, c0, c1, c2, c3, c4, c5, c6, hr, hu',
        hv', e1, e2]
      repeat' split
      all_goals first | rfl | omega
    · have e1 : ¬ (t.length + 8 = 7 + n) := by omega
      have e2 : ¬ (t.length + 8 = 9 + n) := by omega
      have e3 : ¬ (t.length + 1 = n) := by omega
      simp [buildCapdu, rd, tailDecode, hb0, hn, hlc, h2, e1, e2, e3]
  · have hbp : 0 < b.toNat := by omega
    have hbn : ¬ (b = 0) := by rintro rfl; exact hb0 rfl
    generalize hn : b.toNat = n at *
    have c0 : rd (cla :: ins :: p1 :: p2 :: b :: x :: t) 0 = .ok cla := rfl
    have c1 : rd (cla :: ins :: p1 :: p2 :: b :: x :: t) 1 = .ok ins := rfl
    have c2 : rd (cla :: ins :: p1 :: p2 :: b :: x :: t) 2 = .ok p1 := rfl
    have c3 : rd (cla :: ins :: p1 :: p2 :: b :: x :: t) 3 = .ok p2 := rfl
    have c4 : rd (cla :: ins :: p1 :: p2 :: b :: x :: t) 4 = .ok b := rfl
    by_cases h1 : n = t.length + 1
    · have hr : rdRange (cla :: ins :: p1 :: p2 :: b :: x :: t) 5 (t.length + 1) = .ok (x :: t) := by
        rw [rdRange_ok (by simp; omega)]
        simp only [List.drop_succ_cons, List.drop_zero]
        rw [List.take_of_length_le (by simp)]
      subst h1
      have e : 5 + (t.length + 1) = t.length + 6 := by omega
      simp [buildCapdu, tailDecode, hn, hr, e, c0, c1, c2, c3, c4]
    by_cases h2 : t.length = n
    · have hr : rdRange (cla :: ins :: p1 :: p2 :: b :: x :: t) 5 n =
          .ok ((x :: t).take n) := by
        rw [rdRange_ok (by simp; omega)]
        simp only [List.drop_succ_cons, List.drop_zero]
      have hl : (cla :: ins :: p1 :: p2 :: b :: x :: t)[5 + n]? =
          some ((x :: t).getLast (by simp)) := by
        rw [show 5 + n = t.length + 1 + 1 + 1 + 1 + 1 by omega]
        simp only [List.getElem?_cons_succ]
        rw [List.getLast_eq_getElem, List.getElem?_eq_getElem (by simp)]
        simp
      have hl' : rd (cla :: ins :: p1 :: p2 :: b :: x :: t) (5 + n) =
          .ok ((x :: t).getLast (by simp)) := by
        unfold rd; rw [hl]
      have hdl : (x :: t).take n = (x :: t).dropLast := by
        rw [List.dropLast_eq_take]; congr 1; simp; omega
      have e1 : ¬ (n + 6 = 5 + n) := by omega
      have e2 : n + 6 = 6 + n := by omega
      simp [buildCapdu, tailDecode, hn, hbp, h2, hr, c0, c1, c2, c3, c4, hl', hdl, e1, e2]
      repeat' split
      all_goals first | rfl | omega
    · have e1 : ¬ (t.length + 6 = 5 + n) := by omega
      have e2 : ¬ (t.length + 6 = 6 + n) := by omega
      have e3 : ¬ (t.length + 1 = n) := by omega
      simp [buildCapdu, tailDecode, hn, hbp, h2, c0, c1, c2, c3, c4, e1, e2, e3, hb0]

/-! ### Chaining -/

theorem isChained_or (cla : Byte) : isChained (cla ||| 0x10) = true := by
  revert cla; decide +kernel
theorem unchain_or (cla : Byte) : unchain (cla ||| 0x10) = unchain cla := by
  revert cla; decide +kernel
theorem unchain_of_not (cla : Byte) (h : isChained cla = false) : unchain cla = cla := by
  revert cla; decide +kernel
theorem isChained_unchain (cla : Byte) : isChained (unchain cla) = false := by
  revert cla; decide +kernel
theorem unchain_idem (cla : Byte) : unchain (unchain cla) = unchain cla := by
  revert cla; decide +kernel

/-- The chaining state holding the first bytes `acc` of a command. -/
def holding (ch : Chain) (cla ins p1 p2 : Byte) (acc : Bytes) : Chain :=
  { ch with inChaining := true, cla := cla, ins := ins, p1 := p1, p2 := p2, lc := acc.length,
            buf := acc ++ ch.buf.drop acc.length }

theorem cond_eq (ch : Chain) (c : Capdu) :
    (ch.inChaining && ch.cla == unchain c.cla && ch.ins == c.ins && ch.p1 == c.p1
        && ch.p2 == c.p2) = decide (Continues ch c) := by
  unfold Continues
  by_cases h1 : ch.inChaining = true <;> by_cases h2 : ch.cla = unchain c.cla <;>
    by_cases h3 : ch.ins = c.ins <;> by_cases h4 : ch.p1 = c.p1 <;> by_cases h5 : ch.p2 = c.p2 <;>
    simp [h1, h2, h3, h4, h5]

theorem apduInput_holding {ch : Chain} (hb : ch.buf.length = bufSize) (c : Capdu) (acc : Bytes)
    (hlen : acc.length + c.data.length ≤ bufSize) :
    apduInput (holding ch (unchain c.cla) c.ins c.p1 c.p2 acc) c =
      .ok (if isChained c.cla then
             (holding ch (unchain c.cla) c.ins c.p1 c.p2 (acc ++ c.data), .notLast)
           else ({ holding ch (unchain c.cla) c.ins c.p1 c.p2 (acc ++ c.data) with
                    inChaining := false, le := c.le }, .last)) := by
  have h1 : Continues (holding ch (unchain c.cla) c.ins c.p1 c.p2 acc) c :=
    ⟨rfl, rfl, rfl, rfl, rfl⟩
  have h3 : ¬ (bufSize < acc.length + c.data.length) := by omega
  have h2 : wrRange (acc ++ ch.buf.drop acc.length) acc.length c.data =
      .ok (acc ++ c.data ++ ch.buf.drop (acc.length + c.data.length)) := by
    rw [wrRange_ok (by simp; omega)]
    simp
  unfold apduInput
  simp only [cond_eq, h1, decide_true, if_true]
  simp only [holding, Capdu.lc, gt_iff_lt, if_neg h3, h2, ok_bind, pure_eq_ok]
  cases isChained c.cla <;> simp

theorem apduInput_overflow {ch : Chain} (c : Capdu) (acc : Bytes)
    (hlen : bufSize < acc.length + c.data.length) :
    apduInput (holding ch (unchain c.cla) c.ins c.p1 c.p2 acc) c =
      .ok (holding ch (unchain c.cla) c.ins c.p1 c.p2 acc, .overflow) := by
  have h1 : Continues (holding ch (unchain c.cla) c.ins c.p1 c.p2 acc) c :=
    ⟨rfl, rfl, rfl, rfl, rfl⟩
  unfold apduInput
  simp only [cond_eq, h1, decide_true, if_true]
  simp [holding, Capdu.lc, hlen]

/-- A block that does not continue a pending chain behaves as the first of an empty chain. -/
theorem apduInput_fresh {ch : Chain} (c : Capdu) (h : ¬ Continues ch c) :
    apduInput ch c = apduInput (holding ch (unchain c.cla) c.ins c.p1 c.p2 []) c := by
  have h1 : Continues (holding ch (unchain c.cla) c.ins c.p1 c.p2 []) c :=
    ⟨rfl, rfl, rfl, rfl, rfl⟩
  unfold apduInput
  simp only [cond_eq, h, h1, decide_true, decide_false, if_true, if_false, Bool.false_eq_true]
  simp [holding]

/-! ### The dispatcher -/

variable {σ : Type}

/-- `piv_state` after a command that is not offloaded. -/
def pivAfter (s : St σ) : PivState := if s.current = some .piv then .other else s.pivState

theorem process_chain (A : Applets σ) (s : St σ) (c : Capdu) (he : ¬ Eject c)
    (ho : NotOffloaded s c.ins) :
    process A s c = (apduInput s.chain c >>= fun p =>
      match p.2 with
      | .notLast => .ok ({ s with chain := p.1, pivState := pivAfter s }, ⟨[], SW_NO_ERROR⟩)
      | .overflow => .ok ({ s with chain := p.1, pivState := pivAfter s }, ⟨[], SW_CHECKING_ERROR⟩)
      | .last => execLast A { s with chain := p.1, pivState := pivAfter s }) := by
  have he' : (c.cla == 0xFF && c.ins == 0xEE && c.p1 == 0xFF && c.p2 == 0xEE) = false := by
    rw [Bool.eq_false_iff]
    intro h
    simp only [Bool.and_eq_true, beq_iff_eq] at h
    exact he ⟨h.1.1.1, h.1.1.2, h.1.2, h.2⟩
  have hoff : (if s.current == some .piv then pivOffload s.pivState c.ins else (s.pivState, false))
      = (pivAfter s, false) := by
    by_cases hc : s.current = some .piv
    · obtain ⟨h1, h2, h3⟩ := ho hc
      simp only [hc, beq_self_eq_true, if_true, pivAfter, pivOffload, PIV_INS_GET_DATA,
        PIV_INS_PUT_DATA]
      by_cases h4 : c.ins = 0xC0
      · simp [h4, h3 h4]
      · simp [h1, h2, h4]
    · simp [hc, pivAfter]
  unfold process
  simp only [he', hoff, Bool.false_eq_true, if_false]
  congr 1

theorem pivAfter_idem (s : St σ) (ch : Chain) :
    pivAfter { s with chain := ch, pivState := pivAfter s } = pivAfter s := by
  unfold pivAfter; split <;> simp_all

theorem notOffloaded_after {s : St σ} {ins : Byte} (h : NotOffloaded s ins) (ch : Chain) :
    NotOffloaded { s with chain := ch, pivState := pivAfter s } ins := by
  intro hc
  obtain ⟨h1, h2, h3⟩ := h hc
  exact ⟨h1, h2, fun _ => by simp only [pivAfter]; rw [if_pos hc]⟩

theorem isChained_cla_ne_ff {cla : Byte} (h : isChained cla = false) : cla ≠ 0xFF := by
  rintro rfl; exact absurd h (by decide)

end Verif.Apdu
