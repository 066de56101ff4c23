import Verif.Spec.Nfc
import Verif.Base.MemMore
/-
Lemmas about the NFC block protocol.
-/
namespace Verif.Nfc
open Verif.Spec.Nfc

/-- A frame that arrives. -/
theorem irq_frame {s : St} {f : Bytes} (h : f.length ≤ 32) :
    irq s (.frame f) = { s with rx := f ++ s.rx.drop f.length, rxLen := f.length, next := .toSend } := by
  simp only [irq]
  rw [if_neg (by omega)]

theorem sendFrame_now {s : St} (f : Bytes) (l : List Irq) (h : s.next = .toSend) :
    sendFrame s f l = { s with log := .sent f :: s.log, next := .toReceive } := by
  cases l <;> simp [sendFrame, h]

/-- The bytes `a` to `b` of a response as a block. -/
def blockOf (n : Bool) (r : Bytes) (a b : Nat) : Bytes :=
  (0x02 ||| num n ||| if b < r.length then 0x10 else 0) :: (r.drop a).take (b - a)

theorem take_drop_of_take {buf r : Bytes} {a b : Nat} (h : buf.take r.length = r) (hb : b ≤ r.length) :
    (buf.drop a).take (b - a) = (r.drop a).take (b - a) := by
  rw [← h, List.drop_take, List.take_take]
  congr 1
  omega

theorem sendBuf_ok {s : St} {re : Bool} {late : List Irq} {r : Bytes} {a b : Nat} {n : Bool}
    (hn : s.next = .toSend) (hh : s.hung = false) (hs : s.sent = if re then a + s.last else a) (hl : re = true → s.last ≤ 29)
    (ht : s.txSize = r.length) (hr : r.length ≤ 1342) (hb : s.buf.take r.length = r) (hbl : s.buf.length = 1342)
    (ha : a < r.length) (hbm : b = min (a + 29) r.length) (hbn : s.bn = num n) :
    sendBuf s re late = .ok { s with
      sent := b, last := b - a, log := .sent (blockOf n r a b) :: s.log, next := .toReceive,
      inf := if b < r.length then s.inf else false } := by
  have h1 : (if re then (s.sent + 65536 - s.last) % 65536 else s.sent) = a := by
    cases re
    · simpa using hs
    · simp only [if_true] at hs ⊢
      have := hl rfl
      omega
  have h2 : (s.txSize + 65536 - a) % 65536 = r.length - a := by omega
  have h3 : ((r.length - a) == 0) = false := by
    have : r.length - a ≠ 0 := by omega
    simpa using this
  have h4 : min (r.length - a) 29 = b - a := by omega
  have h5 : a + (b - a) = b := by omega
  have h6 : a + (b - a) ≤ s.buf.length := by omega
  have hpcb : (s.bn ||| 0x02 ||| (if s.txSize > b then 0x10 else 0) : Byte) =
      (0x02 ||| num n ||| if b < r.length then 0x10 else 0) := by
    rw [hbn, ht]
    by_cases c : b < r.length
    · rw [if_pos c]
      cases n <;> decide
    · rw [if_neg c]
      cases n <;> decide
  unfold sendBuf
  simp only [h1, h2, h3, Bool.false_eq_true, if_false, h4, h5, pure_eq_ok, rdRange_ok h6, ok_bind, hpcb]
  rw [take_drop_of_take hb (by omega)]
  rw [sendFrame_now _ _ (by exact hn)]
  simp only [hh, Bool.false_eq_true, if_false]
  have h8 : (a + (b - a)) % 65536 = b := by omega
  simp only [h8, ht]
  congr 1
  simp only [blockOf]
  by_cases c : b < r.length
  · have : ¬ r.length = b := by omega
    simp [c, this, hh]
  · have : r.length = b := by omega
    simp [this, hh]

/-- The card has received `acc` of a command; its block number is `n`. -/
structure Receiving (s : St) (n : Bool) (acc : Bytes) : Prop where
  next : s.next = .toReceive
  hung : s.hung = false
  inf : s.inf = false
  bn : s.bn = num n
  buf : s.buf.length = 1342
  rxb : s.rx.length = 32
  size : s.rxSize = acc.length
  data : s.buf.take acc.length = acc

theorem Ready.receiving {s : St} (h : Ready s n) : Receiving s n [] :=
  ⟨h.next, h.hung, h.inf, h.bn, h.buf, h.rxb, h.rx, by simp⟩

theorem iBlock_length (n ch : Bool) (i : Bytes) (c1 c2 : Byte) : (iBlock n ch i c1 c2).length = i.length + 3 := by
  simp [iBlock]

theorem num_xor (n : Bool) : num (!n) ^^^ 1 = num n := by cases n <;> decide

/-- The frame in the receive buffer. -/
theorem rx_take {s : St} {f : Bytes} (h : f.length ≤ 32) (hb : s.rx.length = 32) :
    (irq s (.frame f)).rx.length = 32 ∧ (irq s (.frame f)).rx.take f.length = f := by
  rw [irq_frame h]
  constructor
  · simp only [List.length_append, List.length_drop]; omega
  · exact List.take_left

theorem rd_of_take {l : Bytes} {x : Byte} {t : Bytes} {k : Nat} (h : l.take (k + 1) = x :: t) : rd l 0 = .ok x := by
  cases l with
  | nil => simp at h
  | cons y l =>
    simp only [List.take_succ_cons, List.cons.injEq] at h
    simp [rd, h.1]

/-- The copy of the data of an I-block. -/
theorem recv_ok {s : St} {acc : Bytes} {p c1 c2 : Byte} {i : Bytes} (hi : i.length ≤ 29)
    (hx : s.rx.take (i.length + 3) = p :: i ++ [c1, c2]) (hxl : s.rx.length = 32) (hl : s.rxLen = i.length + 3)
    (hs : s.rxSize = acc.length) (hd : s.buf.take acc.length = acc) (hb : s.buf.length = 1342)
    (hlen : (acc ++ i).length ≤ 1340) :
    ∃ b, recv s = .ok ({ s with buf := b, rxSize := (acc ++ i).length }, true) ∧ b.length = 1342 ∧
      b.take (acc ++ i).length = acc ++ i := by
  have hrd : rdRange s.rx 1 (s.rxLen - 3) = .ok i := by
    rw [rdRange_ok (by omega)]
    congr 1
    have : (s.rx.take (i.length + 3)).drop 1 = i ++ [c1, c2] := by rw [hx]; rfl
    rw [hl, show i.length + 3 - 3 = i.length by omega]
    rw [List.drop_take] at this
    have h2 : ((s.rx.drop 1).take (i.length + 3 - 1)).take i.length = i := by rw [this]; exact List.take_left
    rw [List.take_take] at h2
    rw [show min i.length (i.length + 3 - 1) = i.length by omega] at h2
    exact h2
  simp only [List.length_append] at hlen
  obtain ⟨b, h1, h2, h3⟩ := wr_take (b := s.buf) (d := i) (off := s.rxSize) (by omega)
  refine ⟨b, ?_, by omega, ?_⟩
  · unfold recv
    have : ¬ s.rxLen < 3 := by omega
    have h4 : ¬ s.rxSize + (s.rxLen - 3) > 1340 := by omega
    simp only [this, if_false, hrd, ok_bind, h1, h4, pure_eq_ok]
    have : s.rxSize + (s.rxLen - 3) = (acc ++ i).length := by simp only [List.length_append]; omega
    rw [this]
  · rw [hs] at h3
    rw [List.length_append, h3, hd]

theorem pcb_i (n ch : Bool) :
    ((0x02 ||| num n ||| if ch then 0x10 else 0 : Byte) &&& 0xC0 == 0x00) = true ∧
    ((0x02 ||| num n ||| if ch then 0x10 else 0 : Byte) &&& 0x10 != 0) = ch := by
  cases n <;> cases ch <;> decide

theorem run_deliver (s : St) (f : Bytes) (e : Env) :
    run s [.irq (.frame f), .loop e] = loop (irq s (.frame f)) e := by
  simp only [run, step, ok_bind]
  cases loop (irq s (.frame f)) e <;> rfl

theorem run_cons (s : St) (op : Op) (l : List Op) : run s (op :: l) = (do run (← step s op) l) := rfl

theorem run_append (s : St) (a b : List Op) : run s (a ++ b) = (do run (← run s a) b) := by
  induction a generalizing s with
  | nil => rfl
  | cons op a ih =>
    show (do run (← step s op) (a ++ b)) = _
    rw [run_cons]
    cases step s op with
    | error x => rfl
    | ok t =>
      simp only [ok_bind]
      exact ih t

/-- The state in which an I-block is decoded. -/
theorem loop_iBlock {s : St} {e : Env} {n ch : Bool} {i : Bytes} {c1 c2 : Byte} (h : Receiving s (!n) acc)
    (hi : i.length ≤ 29) (hlen : (acc ++ i).length ≤ 1340) :
    ∃ b x, b.length = 1342 ∧ b.take (acc ++ i).length = acc ++ i ∧ x.length = 32 ∧
      run s [.irq (.frame (iBlock n ch i c1 c2)), .loop e] =
        (let t := { s with bn := num n, buf := b, rx := x, rxLen := i.length + 3, next := .toSend, rxSize := (acc ++ i).length }
         if ch then .ok (sendFrame t [0xA2 ||| t.bn] e.late) else exec t e) := by
  have hf : (iBlock n ch i c1 c2).length ≤ 32 := by rw [iBlock_length]; omega
  obtain ⟨hx1, hx2⟩ := rx_take (s := s) hf h.rxb
  have hir := irq_frame (s := s) hf
  rw [run_deliver]
  generalize hu : irq s (.frame (iBlock n ch i c1 c2)) = u at hx1 hx2 hir
  rw [iBlock_length] at hx2 hir
  have hun : u = { s with rx := u.rx, rxLen := i.length + 3, next := .toSend } := by rw [hir]
  have hrd : rd u.rx 0 = .ok (0x02 ||| num n ||| if ch then 0x10 else 0) := rd_of_take hx2
  generalize u.rx = x at hrd hun hx1 hx2
  obtain ⟨b, h1, h2, h3⟩ := recv_ok
    (s := { s with rx := x, rxLen := i.length + 3, next := .toSend, bn := num n }) (acc := acc) (i := i)
    (p := (0x02 ||| num n ||| if ch then 0x10 else 0)) (c1 := c1) (c2 := c2) hi hx2 hx1
    rfl h.size h.data h.buf hlen
  refine ⟨b, x, h2, h3, hx1, ?_⟩
  subst hun
  have hbn : s.bn ^^^ 1 = num n := by rw [h.bn, num_xor]
  unfold loop
  simp only [h.hung, reduceCtorEq, decide_false, Bool.or_self, Bool.false_eq_true, if_false, hrd, ok_bind, (pcb_i n ch).1, if_true]
  rw [hbn]
  rw [h.hung] at h1
  simp only [h1, ok_bind, Bool.not_true, Bool.false_eq_true, if_false, (pcb_i n ch).2]
  cases ch <;> rfl

/-- A chained block. -/
theorem chain_block {s : St} {e : Env} {n : Bool} {i acc : Bytes} {c1 c2 : Byte} (h : Receiving s (!n) acc)
    (hi : i.length ≤ 29) (hlen : (acc ++ i).length ≤ 1340) :
    ∃ t, run s [.irq (.frame (iBlock n true i c1 c2)), .loop e] = .ok t ∧ Receiving t n (acc ++ i) ∧
      t.log = .sent [0xA2 ||| num n] :: s.log := by
  obtain ⟨b, x, h1, h2, h3, h4⟩ := loop_iBlock (e := e) (ch := true) (c1 := c1) (c2 := c2) h hi hlen
  refine ⟨_, h4, ?_, ?_⟩
  · rw [sendFrame_now _ _ rfl]
    exact ⟨rfl, h.hung, h.inf, rfl, h1, h3, rfl, h2⟩
  · rw [sendFrame_now _ _ rfl]

theorem rBlock_facts (n : Bool) :
    ((0xA2 ||| num n : Byte) &&& 0xC0 == 0x00) = false ∧ ((0xA2 ||| num n : Byte) &&& 0xC0 == 0x80) = true ∧
    ((0xA2 ||| num n : Byte) &&& 1) = num n ∧ ((0xA2 ||| num n : Byte) &&& 0xB2 == 0xA2) = true ∧
    ((0xB2 ||| num n : Byte) &&& 0xC0 == 0x00) = false ∧ ((0xB2 ||| num n : Byte) &&& 0xC0 == 0x80) = true ∧
    ((0xB2 ||| num n : Byte) &&& 1) = num n ∧ ((0xB2 ||| num n : Byte) &&& 0xB2 == 0xA2) = false := by
  cases n <;> decide

theorem num_inj (a b : Bool) : (num a == num b) = (a == b) := by cases a <;> cases b <;> decide

/-- An R-block. -/
theorem loop_rBlock {s : St} {e : Env} {n m ack : Bool} {c1 c2 : Byte} (hh : s.hung = false) (hx : s.rx.length = 32)
    (hb : s.bn = num m) :
    ∃ x, x.length = 32 ∧
      run s [.irq (.frame (if ack then rAck n c1 c2 else rNak n c1 c2)), .loop e] =
        (let t := { s with rx := x, rxLen := 3, next := .toSend }
         if n = m then sendBuf t true e.late
         else if ack = true ∨ s.inf = true then sendBuf { t with bn := num n } false e.late
         else .ok (sendFrame t [0xA2 ||| s.bn] e.late)) := by
  have hl : (if ack then rAck n c1 c2 else rNak n c1 c2).length = 3 := by cases ack <;> rfl
  have hf : (if ack then rAck n c1 c2 else rNak n c1 c2).length ≤ 32 := by omega
  obtain ⟨hx1, hx2⟩ := rx_take (s := s) hf hx
  have hir := irq_frame (s := s) hf
  rw [run_deliver]
  generalize hu : irq s (.frame (if ack then rAck n c1 c2 else rNak n c1 c2)) = u at hx1 hx2 hir
  rw [hl] at hx2 hir
  refine ⟨u.rx, hx1, ?_⟩
  have hrd : rd u.rx 0 = .ok (if ack then 0xA2 ||| num n else 0xB2 ||| num n) := by
    cases ack
    · exact rd_of_take hx2
    · exact rd_of_take hx2
  have hun : u = { s with rx := u.rx, rxLen := 3, next := .toSend } := by rw [hir]
  obtain ⟨f1, f2, f3, f4, f5, f6, f7, f8⟩ := rBlock_facts n
  have hxn : n ≠ m → num m ^^^ 1 = num n := by
    cases n <;> cases m <;> decide
  generalize u.rx = x at hrd hun
  subst hun
  unfold loop
  simp only [hh, reduceCtorEq, decide_false, Bool.or_self, Bool.false_eq_true, if_false, hrd, ok_bind]
  cases ack
  · simp only [Bool.false_eq_true, if_false, f5, f6, f7, f8, if_true, Bool.false_or, hb, num_inj, false_or]
    by_cases c : n = m
    · simp only [c, beq_self_eq_true, if_true]
    · have : (n == m) = false := by simpa using c
      simp only [this, c, if_false, Bool.false_eq_true, hxn c]
      rfl
  · simp only [f1, f2, f3, f4, if_true, if_false, Bool.true_or, hb, num_inj, true_or, Bool.false_eq_true]
    by_cases c : n = m
    · simp only [c, beq_self_eq_true, if_true]
    · have : (n == m) = false := by simpa using c
      simp only [this, c, if_false, Bool.false_eq_true, hxn c]

/-- A lost block. -/
theorem chain_probe {s : St} {e : Env} {n : Bool} {acc : Bytes} {c1 c2 : Byte} (h : Receiving s (!n) acc) :
    ∃ t, run s [.irq (.frame (rNak n c1 c2)), .loop e] = .ok t ∧ Receiving t (!n) acc ∧
      t.log = .sent [0xA2 ||| num (!n)] :: s.log := by
  obtain ⟨x, h1, h2⟩ := loop_rBlock (e := e) (n := n) (ack := false) (c1 := c1) (c2 := c2) h.hung h.rxb h.bn
  have hne : ¬ n = !n := by cases n <;> decide
  simp only [hne, if_false, h.inf, Bool.false_eq_true, or_self] at h2
  rw [sendFrame_now _ _ rfl] at h2
  refine ⟨_, h2, ⟨rfl, h.hung, rfl, h.bn, h.buf, h1, h.size, h.data⟩, ?_⟩
  simp only [h.bn]

end Verif.Nfc
