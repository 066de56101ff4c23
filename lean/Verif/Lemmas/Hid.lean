import Verif.Spec.Hid
/-
Lemmas about the CTAPHID model.
-/
namespace Verif.Hid
open Verif.Spec.Hid

theorem sendFrame_quiet {s : St} (h : s.arr = []) : sendFrame s = { s with log := .sent s.frame :: s.log } := by
  simp [sendFrame, arrive, h]

theorem sendFrame_has {s : St} (h : s.has = true) :
    ∃ a, sendFrame s = { s with log := .sent s.frame :: s.log, arr := a } := by
  have key : ∀ s : St, s.has = true → ∃ a, arrive s = { s with arr := a } := by
    intro s h
    unfold arrive
    split
    · exact ⟨s.arr, rfl⟩
    · exact ⟨_, rfl⟩
    · next f a _ => exact ⟨a, by simp [outEvent, h]⟩
  obtain ⟨a, ha⟩ := key s h
  obtain ⟨b, hb⟩ := key { s with arr := a, log := .sent s.frame :: s.log } h
  refine ⟨b, ?_⟩
  simp only [sendFrame, ha, hb]

theorem wrRange_take {b : Bytes} {d : Bytes} {off : Nat} (h : off + d.length ≤ b.length) :
    ∃ b', wrRange b off d = .ok b' ∧ b'.length = b.length ∧ b'.take (off + d.length) = b.take off ++ d := by
  refine ⟨_, wrRange_ok h, ?_, ?_⟩
  · simp only [List.length_append, List.length_take, List.length_drop]; omega
  · have : (b.take off ++ d).length = off + d.length := by
      simp only [List.length_append, List.length_take]; omega
    rw [← this, List.take_left]

theorem conts_nil (cid : UInt32) (n : Nat) : conts cid n [] = [] := by
  rw [conts]; simp

theorem conts_cons (cid : UInt32) (n : Nat) {m : Bytes} (h : m ≠ []) :
    conts cid n m = ⟨cid, UInt8.ofNat n :: pad 59 (m.take 59)⟩ :: conts cid (n + 1) (m.drop 59) := by
  rw [conts]; simp [h]

/-! ### Responses -/

theorem sendConts_quiet : ∀ (n : Nat) (s : St) (rest : Bytes) (seq : Nat), rest.length ≤ n → s.arr = [] →
    ∃ fr, sendConts s rest (UInt8.ofNat seq) =
      { s with frame := fr, log := ((conts s.frame.cid seq rest).map Ev.sent).reverse ++ s.log }
  | n, s, rest, seq, hn, ha => by
    rw [sendConts]
    split
    · next h => subst h; exact ⟨s.frame, by simp [conts_nil]⟩
    · next h =>
      cases n with
      | zero => exact absurd (List.length_eq_zero_iff.1 (Nat.le_zero.1 hn)) h
      | succ n =>
        rw [sendFrame_quiet (by exact ha)]
        have hlen := List.length_pos_iff.2 h
        obtain ⟨fr, hf⟩ := sendConts_quiet n
          { s with frame := ⟨s.frame.cid, contBody (UInt8.ofNat seq) (rest.take 59)⟩,
                   log := .sent ⟨s.frame.cid, contBody (UInt8.ofNat seq) (rest.take 59)⟩ :: s.log }
          (rest.drop 59) (seq + 1) (by simp only [List.length_drop]; omega) ha
        refine ⟨fr, ?_⟩
        have h1 : UInt8.ofNat seq + 1 = UInt8.ofNat (seq + 1) := by
          rw [UInt8.ofNat_add]; rfl
        rw [h1, hf, conts_cons _ _ h]
        simp [contBody, pad]

/-- Without interruptions the response is sent as its packets. -/
theorem sendResponse_quiet {s : St} {cid : UInt32} {cmd : Byte} {len : Nat} (ha : s.arr = [])
    (hl : len ≤ s.ch.data.length) (hc : 0x80 ||| cmd = cmd) :
    ∃ fr, sendResponse s cid cmd len =
      .ok { s with frame := fr, log := ((encode cid cmd (s.ch.data.take len)).map Ev.sent).reverse ++ s.log } := by
  have hlen : (s.ch.data.take len).length = len := by simp; omega
  unfold sendResponse
  rw [rdRange_ok (by omega), ok_bind, List.drop_zero, hc]
  rw [sendFrame_quiet (by exact ha)]
  obtain ⟨fr, hf⟩ := sendConts_quiet _
    { s with frame := ⟨cid, initBody cmd len ((s.ch.data.take len).take 57)⟩,
             log := .sent ⟨cid, initBody cmd len ((s.ch.data.take len).take 57)⟩ :: s.log }
    ((s.ch.data.take len).drop 57) 0 (Nat.le_refl _) ha
  refine ⟨fr, ?_⟩
  have h0 : (0 : UInt8) = UInt8.ofNat 0 := rfl
  rw [h0]
  refine (congrArg Except.ok hf).trans ?_
  simp only [encode, hlen, initBody, pad]
  simp

/-! ### The host's view of the packets -/

theorem collect_conts (cid : UInt32) : ∀ (n : Nat) (m : Bytes) (seq : Nat), m.length ≤ n →
    collect cid seq m.length (conts cid seq m) = some m
  | n, m, seq, hn => by
    by_cases h : m = []
    · subst h; simp [conts_nil, collect]
    · cases n with
      | zero => exact absurd (List.length_eq_zero_iff.1 (Nat.le_zero.1 hn)) h
      | succ n =>
        have hlen := List.length_pos_iff.2 h
        have ih := collect_conts cid n (m.drop 59) (seq + 1) (by simp only [List.length_drop]; omega)
        rw [conts_cons _ _ h, collect]
        have hp : (pad 59 (m.take 59)).length = 59 := by
          simp only [pad, List.length_append, List.length_take, List.length_replicate]; omega
        rw [if_neg]
        · rw [List.length_drop] at ih
          rw [ih]
          simp only [Option.map_some, List.drop_succ_cons, List.drop_zero, Option.some.injEq]
          have : (pad 59 (m.take 59)).take (min m.length 59) = m.take 59 := by
            unfold pad
            rw [List.take_append_of_le_length (by simp only [List.length_take]; omega), List.take_take]
            by_cases hm : m.length ≤ 59
            · rw [List.take_of_length_le (by omega), List.take_of_length_le (by omega)]
            · congr 1; omega
          rw [this, List.take_append_drop]
        · simp only [List.length_cons, hp, List.head?_cons]
          simp
          omega

/-- The host reads back what was sent. -/
theorem decode_encode (cid : UInt32) (cmd : Byte) (m : Bytes) (h : m.length < 65536) :
    decode (encode cid cmd m) = some (cid, cmd, m) := by
  have hp : (pad 57 (m.take 57)).length = 57 := by
    simp only [pad, List.length_append, List.length_take, List.length_replicate]; omega
  have hn : (UInt8.ofNat (m.length / 256)).toNat * 256 + (UInt8.ofNat m.length).toNat = m.length := by
    simp only [UInt8.toNat_ofNat']; omega
  unfold encode decode
  simp only [List.cons_append, List.nil_append, hn, hp, ne_eq, not_true_eq_false, if_false]
  have := collect_conts cid _ (m.drop 57) 0 (Nat.le_refl _)
  rw [List.length_drop] at this
  rw [this]
  have ht : (pad 57 (m.take 57)).take (min m.length 57) = m.take 57 := by
    unfold pad
    rw [List.take_append_of_le_length (by simp only [List.length_take]; omega), List.take_take]
    by_cases hm : m.length ≤ 57
    · rw [List.take_of_length_le (by omega), List.take_of_length_le (by omega)]
    · congr 1; omega
  simp [ht]

end Verif.Hid
