import Verif.Lemmas.Nfc
import Verif.Props.Apdu
/-
C48: commands and responses over NFC.
-/
namespace Verif.Nfc
open Verif.Spec.Nfc

/-- All chained blocks of a command. -/
theorem chain_all {n : Bool} {ps : List Part} (hf : fits ps) : ∀ {s : St} {acc : Bytes}, Receiving s (!n) acc →
    (acc ++ bytes ps).length ≤ 1340 →
    ∃ t, run s (chained n ps) = .ok t ∧ Receiving t (!(after n ps)) (acc ++ bytes ps) ∧
      t.log = (acks n ps).map .sent ++ s.log := by
  induction ps generalizing n with
  | nil =>
    intro s acc h hl
    exact ⟨s, rfl, by simpa [after, bytes] using h, rfl⟩
  | cons p ps ih =>
    intro s acc h hl
    cases p with
    | block i c1 c2 e =>
      have hl2 : (acc ++ i ++ bytes ps).length ≤ 1340 := by
        simpa [bytes] using hl
      obtain ⟨t, h1, h2, h3⟩ := chain_block (e := e) (c1 := c1) (c2 := c2) h hf.1
        (by simp only [List.length_append] at hl2 ⊢; omega)
      obtain ⟨u, h4, h5, h6⟩ := ih (n := !n) hf.2 (s := t) (acc := acc ++ i) (by simpa using h2) hl2
      refine ⟨u, ?_, by simpa [after, bytes] using h5, ?_⟩
      · show run s ([_, _] ++ chained (!n) ps) = _
        rw [run_append, h1]
        exact h4
      · rw [h6, h3]
        simp [acks]
    | probe c1 c2 e =>
      obtain ⟨t, h1, h2, h3⟩ := chain_probe (e := e) (c1 := c1) (c2 := c2) h
      obtain ⟨u, h4, h5, h6⟩ := ih (n := n) hf (s := t) (acc := acc) h2 hl
      refine ⟨u, ?_, h5, ?_⟩
      · show run s ([_, _] ++ chained n ps) = _
        rw [run_append, h1]
        exact h4
      · rw [h6, h3]
        simp [acks]

/-- Waiting time extensions change nothing that matters. -/
theorem irqs_waits {l : List Irq} (h : Waits l) : ∀ {s : St}, s.next = .toSend → s.rx.length = 32 →
    ∃ x k, x.length = 32 ∧ ∃ m, irqs s l = { s with rx := x, rxLen := m, log := List.replicate k (.sent [0xF2, 1]) ++ s.log } := by
  induction h with
  | nil => intro s hs hx; exact ⟨s.rx, 0, hx, s.rxLen, rfl⟩
  | @cons l f hf _ ih =>
    intro s hs hx
    have h1 : irq s .wtx = { s with log := .sent [0xF2, 1] :: s.log, next := .toReceive } := by
      simp [irq, hs]
    have h2 := irq_frame (s := irq s .wtx) hf
    rw [h1] at h2
    obtain ⟨x, k, h3, m, h4⟩ := ih (s := irq (irq s .wtx) (.frame f)) (by rw [h1, h2])
      (by rw [h1, h2]; simp only [List.length_append, List.length_drop]; omega)
    refine ⟨x, k + 1, h3, m, ?_⟩
    show irqs (irq (irq s .wtx) (.frame f)) l = _
    rw [h4, h1, h2]
    simp only [hs, List.replicate_succ']
    congr 1
    simp

/-- The card is sending the response `r`; the last block had the bytes `a` to `b`. -/
structure Sending (s : St) (n : Bool) (r : Bytes) (a b : Nat) : Prop where
  next : s.next = .toReceive
  hung : s.hung = false
  rx : s.rxSize = 0
  bn : s.bn = num n
  buf : s.buf.length = 1342
  rxb : s.rx.length = 32
  len : r.length ≤ 1342
  data : s.buf.take r.length = r
  tx : s.txSize = r.length
  sent : s.sent = b
  last : s.last = b - a
  ab : a < r.length
  bm : b = min (a + 29) r.length
  inf : s.inf = decide (b < r.length)

/-- The first block of a response. -/
theorem first_block {u : St} {n : Bool} {r : Bytes} {late : List Irq} (hn : u.next = .toSend) (hh : u.hung = false)
    (hbn : u.bn = num n) (hb : u.buf.length = 1342) (hx : u.rx.length = 32) (h0 : 0 < r.length) (hr : r.length ≤ 1342) :
    ∃ b, wrRange u.buf 0 r = .ok b ∧ ∃ t,
      sendBuf { u with buf := b, txSize := r.length, rxSize := 0, sent := 0, inf := true } false late = .ok t ∧
      Sending t n r 0 (min 29 r.length) ∧ t.log = .sent (blockOf n r 0 (min 29 r.length)) :: u.log := by
  obtain ⟨b, h1, h2, h3⟩ := wr_take (b := u.buf) (d := r) (off := 0) (by omega)
  simp only [Nat.zero_add, List.take_zero, List.nil_append] at h3
  refine ⟨b, h1, _, sendBuf_ok (r := r) (a := 0) (b := min 29 r.length) (n := n) hn hh rfl (by simp) rfl hr h3
    (by show b.length = _; omega) h0 (by omega) hbn, ?_, rfl⟩
  refine ⟨rfl, hh, rfl, hbn, by show b.length = _; omega, hx, hr, h3, rfl, rfl, rfl, h0, by omega, ?_⟩
  simp only
  by_cases c : min 29 r.length < r.length <;> simp [c]

/-- The last block of a command. -/
theorem last_block {s : St} {e : Env} {n : Bool} {i acc : Bytes} {c1 c2 : Byte} (h : Receiving s (!n) acc)
    (hi : i.length ≤ 29) (hlen : (acc ++ i).length ≤ 1340) (hw : Waits e.mid) (hr : e.resp.length ≤ 1340) :
    ∃ t r, run s [.irq (.frame (iBlock n false i c1 c2)), .loop e] = .ok t ∧
      Sending t n r 0 (min 29 r.length) ∧
      ((WellFormed (acc ++ i) ∧ r = e.resp ++ [e.sw1, e.sw2] ∧
        ∃ k, t.log = .sent (blockOf n r 0 (min 29 r.length)) :: (List.replicate k (.sent [0xF2, 1]) ++
          .exec (acc ++ i) r :: s.log)) ∨
       (¬ WellFormed (acc ++ i) ∧ r = [0x67, 0x00] ∧
        t.log = .sent (blockOf n r 0 (min 29 r.length)) :: s.log)) := by
  obtain ⟨b, x, h1, h2, h3, h4⟩ := loop_iBlock (e := e) (ch := false) (c1 := c1) (c2 := c2) h hi hlen
  simp only [Bool.false_eq_true, if_false] at h4
  rw [h4]
  have hlen' := hlen
  simp only [List.length_append] at hlen'
  have hrd : rdRange b 0 (acc ++ i).length = .ok (acc ++ i) := by
    rw [rdRange_ok (by simp only [List.length_append]; omega)]
    simp only [List.drop_zero]
    rw [h2]
  obtain ⟨rr, hrr⟩ := Apdu.C05_never_oob (acc ++ i)
  have hiff : WellFormed (acc ++ i) ↔ rr.isSome = true := by
    constructor
    · rintro ⟨cla, ins, p1, p2, data, ne, he⟩
      have := (Apdu.C05_decode_iff (acc ++ i) ⟨cla, ins, p1, p2, data, ne⟩).2 he
      rw [hrr] at this
      cases this
      rfl
    · intro hs
      obtain ⟨c, rfl⟩ := Option.isSome_iff_exists.1 hs
      exact ⟨_, _, _, _, _, _, (Apdu.C05_decode_iff _ _).1 hrr⟩
  generalize hu : ({ s with
    bn := num n, buf := b, rx := x, rxLen := i.length + 3, next := .toSend, rxSize := (acc ++ i).length } : St) = u
  have u1 : u.next = .toSend := by rw [← hu]
  have u2 : u.hung = false := by rw [← hu]; exact h.hung
  have u3 : u.bn = num n := by rw [← hu]
  have u4 : u.buf = b := by rw [← hu]
  have u5 : u.rx.length = 32 := by rw [← hu]; exact h3
  have u6 : u.log = s.log := by rw [← hu]
  have u7 : u.rxSize = (acc ++ i).length := by rw [← hu]
  clear hu
  rw [← u4] at hrd h1
  unfold exec
  simp only [u7, hrd, ok_bind, hrr]
  cases rr with
  | none =>
    have hnw : ¬ WellFormed (acc ++ i) := by rw [hiff]; simp
    obtain ⟨r, hrdef⟩ : ∃ r : Bytes, r = [0x67, 0x00] := ⟨_, rfl⟩
    have hl2 : r.length = 2 := by rw [hrdef]; rfl
    obtain ⟨b', h5, t, h6, h7, h8⟩ := first_block (late := e.late) (n := n) (r := r) u1 u2 u3 h1 u5 (by omega) (by omega)
    simp only [← hrdef, h5, ok_bind]
    rw [hl2] at h6
    rw [u6] at h8
    exact ⟨t, _, h6, h7, Or.inr ⟨hnw, rfl, h8⟩⟩
  | some c =>
    have hrl : (e.resp ++ [e.sw1, e.sw2]).length = e.resp.length + 2 := by simp
    obtain ⟨x', k, h5, m, h6⟩ := irqs_waits hw
      (s := { u with log := .exec (acc ++ i) (e.resp ++ [e.sw1, e.sw2]) :: u.log, rxSize := (acc ++ i).length }) u1 u5
    generalize hv : irqs _ e.mid = v at h6 ⊢
    have v1 : v.next = .toSend := by rw [h6]; exact u1
    have v2 : v.hung = false := by rw [h6]; exact u2
    have v3 : v.bn = num n := by rw [h6]; exact u3
    have v4 : v.buf = u.buf := by rw [h6]
    have v5 : v.rx.length = 32 := by rw [h6]; exact h5
    have v6 : v.log = List.replicate k (.sent [0xF2, 1]) ++ .exec (acc ++ i) (e.resp ++ [e.sw1, e.sw2]) :: s.log := by
      rw [h6, ← u6]
    obtain ⟨b', h7, t, h8, h9, h10⟩ := first_block (late := e.late) (n := n) (r := e.resp ++ [e.sw1, e.sw2])
      v1 v2 v3 (v4 ▸ h1) v5 (by omega) (by omega)
    rw [h7, ok_bind]
    rw [hrl] at h8
    exact ⟨t, _, h8, h9, Or.inl ⟨hiff.2 rfl, rfl, k, by rw [h10, v6]⟩⟩

/-- The card sends the last block again. -/
theorem again {s : St} {e : Env} {n : Bool} {r : Bytes} {a b : Nat} {ack : Bool} {c1 c2 : Byte} (h : Sending s n r a b) :
    ∃ t, run s [.irq (.frame (if ack then rAck n c1 c2 else rNak n c1 c2)), .loop e] = .ok t ∧ Sending t n r a b ∧
      t.log = .sent (blockOf n r a b) :: s.log := by
  obtain ⟨x, h1, h2⟩ := loop_rBlock (e := e) (n := n) (ack := ack) (c1 := c1) (c2 := c2) h.hung h.rxb h.bn
  have hb := h.bm
  have ha := h.ab
  have hl := h.last
  simp only [if_true] at h2
  rw [sendBuf_ok (s := { s with rx := x, rxLen := 3, next := .toSend }) (r := r) (a := a) (b := b) (n := n) rfl h.hung (by simp only [h.sent, if_true]; omega)
    (fun _ => by simp only; omega) h.tx h.len h.data h.buf h.ab h.bm h.bn] at h2
  refine ⟨_, h2, ⟨rfl, h.hung, h.rx, h.bn, h.buf, h1, h.len, h.data, h.tx, rfl, rfl, h.ab, h.bm, ?_⟩, rfl⟩
  simp only [h.inf]
  by_cases c : b < r.length <;> simp [c]

/-- The card sends the next block. -/
theorem forward {s : St} {e : Env} {n : Bool} {r : Bytes} {a b : Nat} {ack : Bool} {c1 c2 : Byte} (h : Sending s n r a b)
    (hb : b < r.length) :
    ∃ t, run s [.irq (.frame (if ack then rAck (!n) c1 c2 else rNak (!n) c1 c2)), .loop e] = .ok t ∧
      Sending t (!n) r b (min (b + 29) r.length) ∧
      t.log = .sent (blockOf (!n) r b (min (b + 29) r.length)) :: s.log := by
  obtain ⟨x, h1, h2⟩ := loop_rBlock (e := e) (n := !n) (ack := ack) (c1 := c1) (c2 := c2) h.hung h.rxb h.bn
  have hne : ¬ (!n) = n := by cases n <;> decide
  have hi : s.inf = true := by rw [h.inf]; simpa using hb
  simp only [hne, if_false, hi, or_true, if_true] at h2
  rw [sendBuf_ok (s := { s with rx := x, rxLen := 3, next := .toSend, bn := num !n, inf := true }) (r := r) (a := b)
    (b := min (b + 29) r.length) (n := !n) rfl h.hung (by simp only [h.sent]; rfl)
    (by simp) h.tx h.len h.data h.buf hb rfl rfl] at h2
  refine ⟨_, h2, ⟨rfl, h.hung, h.rx, rfl, h.buf, h1, h.len, h.data, h.tx, rfl, rfl, hb, rfl, ?_⟩, rfl⟩
  simp only
  by_cases c : min (b + 29) r.length < r.length <;> simp [c]

theorem frames_cons {s t : St} {f : Bytes} (h : t.log = .sent f :: s.log) : frames t = f :: frames s := by
  simp [frames, frameOf, List.filterMap_cons, h]

theorem deliver_ok {s t : St} {f g : Bytes} {e : Env} (h : run s [.irq (.frame f), .loop e] = .ok t)
    (hl : t.log = .sent g :: s.log) : deliver s f e = .ok (t, some g) := by
  unfold deliver
  rw [h]
  simp only [ok_bind, frames_cons hl, pure_eq_ok]
  congr 2
  rw [show (g :: frames s).length - (frames s).length = 1 by simp]
  rfl

/-- The reader takes the block that the card has sent. -/
theorem take_blockOf {n : Bool} {r acc : Bytes} {a b : Nat} (hb : b ≤ r.length) (ha : acc = r.take a) (hab : a ≤ b) :
    Reader.take ⟨n, acc, false⟩ (blockOf n r a b) = (⟨!n, r.take b, decide (b = r.length)⟩, true) := by
  have hacc : acc ++ (r.drop a).take (b - a) = r.take b := by
    rw [ha]
    rw [show b = a + (b - a) by omega, List.take_add]
    simp
  unfold blockOf Reader.take
  simp only [hacc]
  by_cases c : b < r.length
  · have hc : ¬ b = r.length := by omega
    simp only [c, if_true, hc, decide_false]
    have h1 : ¬ (0x02 ||| num n ||| 0x10 : Byte) = 0x02 ||| num n := by cases n <;> decide
    have h2 : (0x02 ||| num n ||| 0x10 : Byte) = 0x12 ||| num n := by cases n <;> decide
    rw [if_neg h1, if_pos h2]
  · have hc : b = r.length := by omega
    have h2 : (0x02 ||| num n ||| 0 : Byte) = 0x02 ||| num n := by cases n <;> decide
    simp only [c, if_false, h2, if_true]
    simp [hc]

/-- Where the reader and the card are. -/
inductive Rel (s : St) (r : Bytes) : Reader → Option Bytes → Prop
  /-- the reader has not got the last block -/
  | behind (n a b) (h : Sending s n r a b) (fl : Option Bytes) (hf : fl = none ∨ fl = some (blockOf n r a b)) :
    Rel s r ⟨n, r.take a, false⟩ fl
  /-- it has -/
  | even (n a b) (h : Sending s n r a b) : Rel s r ⟨!n, r.take b, decide (b = r.length)⟩ none

theorem Rel.prefix {s : St} {r : Bytes} {rd : Reader} {fl : Option Bytes} (h : Rel s r rd fl) :
    rd.acc <+: r ∧ (rd.done = true → rd.acc = r ∧ Ready s (!rd.n)) := by
  cases h with
  | behind n a b h fl hf => exact ⟨List.take_prefix _ _, fun h => nomatch h⟩
  | even n a b h =>
    refine ⟨List.take_prefix _ _, fun hd => ?_⟩
    have hb : b = r.length := by simpa using hd
    refine ⟨by show r.take b = r; rw [hb]; exact List.take_length, ⟨h.next, h.hung, h.rx, ?_, ?_, h.buf, h.rxb⟩⟩
    · rw [h.inf, hb]
      simp
    · simpa using h.bn

theorem executed_cons {s t : St} {f : Bytes} (h : t.log = .sent f :: s.log) : executed t = executed s := by
  simp [executed, execOf, List.filterMap_cons, h]

/-- A request that gets through. -/
theorem Rel.request {s : St} {r : Bytes} {rd : Reader} {fl : Option Bytes} (h : Rel s r rd fl) (hd : rd.done = false)
    (ack : Bool) (c1 c2 : Byte) (e : Env) :
    ∃ s' f, deliver s (if ack then rAck rd.n c1 c2 else rNak rd.n c1 c2) e = .ok (s', some f) ∧
      Rel s' r rd (some f) ∧ executed s' = executed s := by
  cases h with
  | behind n a b h fl hf =>
    obtain ⟨t, h1, h2, h3⟩ := again (ack := ack) (c1 := c1) (c2 := c2) (e := e) h
    exact ⟨t, _, deliver_ok h1 h3, .behind n a b h2 _ (Or.inr rfl), executed_cons h3⟩
  | even n a b h =>
    have hb : ¬ b = r.length := by simpa using hd
    have hbl : b < r.length := by have := h.bm; omega
    obtain ⟨t, h1, h2, h3⟩ := forward (ack := ack) (c1 := c1) (c2 := c2) (e := e) h hbl
    refine ⟨t, _, deliver_ok h1 h3, ?_, executed_cons h3⟩
    have := Rel.behind (!n) b _ h2 _ (Or.inr rfl)
    simpa [hb] using this

/-- A frame that gets through. -/
theorem Rel.arrives {s : St} {r : Bytes} {rd : Reader} {f : Bytes} (h : Rel s r rd (some f)) :
    Rel s r (rd.take f).1 none ∧ (rd.take f).2 = true ∧ ((rd.take f).1.acc.length = min (rd.acc.length + 29) r.length) ∧
      ((rd.take f).1.done = true ↔ (rd.take f).1.acc.length = r.length) := by
  cases h with
  | behind n a b h fl hf =>
    have hbm := h.bm
    have hab := h.ab
    have : f = blockOf n r a b := by simpa using hf
    rw [this, take_blockOf (by omega) rfl (by omega)]
    refine ⟨.even n a b h, rfl, ?_, ?_⟩
    · simp only [List.length_take]; omega
    · simp only [List.length_take, decide_eq_true_eq]; omega

theorem Rel.lost {s : St} {r : Bytes} {rd : Reader} {fl : Option Bytes} (h : Rel s r rd fl) : Rel s r rd none := by
  cases h with
  | behind n a b h fl hf => exact .behind n a b h _ (Or.inl rfl)
  | even n a b h => exact .even n a b h

/-- The reader's half of a round. -/
def half (rd : Reader) (fl : Option Bytes) (lost : Bool) : Reader × Bool :=
  match fl with
  | some f => if lost then (rd, false) else rd.take f
  | none => (rd, false)

theorem receive_cons (s : St) (rd : Reader) (fl : Option Bytes) (x : Round) (l : List Round) (h : rd.done = false) :
    receive s rd fl (x :: l) =
      (if (half rd fl x.frameLost).1.done || x.requestLost then receive s (half rd fl x.frameLost).1 none l
       else do
        let (s, fl') ← deliver s (if (half rd fl x.frameLost).2 then rAck (half rd fl x.frameLost).1.n x.c1 x.c2
          else rNak (half rd fl x.frameLost).1.n x.c1 x.c2) x.e
        receive s (half rd fl x.frameLost).1 fl' l) := by
  show (if rd.done = true then _ else _) = _
  rw [if_neg (by simp [h])]
  rfl

theorem receive_done (s : St) (rd : Reader) (fl : Option Bytes) (l : List Round) (h : rd.done = true) :
    receive s rd fl l = .ok (s, rd) := by
  cases l with
  | nil => rfl
  | cons x l =>
    show (if rd.done = true then _ else _) = _
    rw [if_pos h]

theorem Rel.half {s : St} {r : Bytes} {rd : Reader} {fl : Option Bytes} (h : Rel s r rd fl) (lost : Bool) :
    Rel s r (half rd fl lost).1 none := by
  unfold Nfc.half
  cases fl with
  | none => exact h
  | some f =>
    cases lost
    · exact h.arrives.1
    · exact h.lost

/-- One round. -/
theorem Rel.round {s : St} {r : Bytes} {rd : Reader} {fl : Option Bytes} (h : Rel s r rd fl) (hd : rd.done = false)
    (x : Round) (l : List Round) :
    ∃ s' fl', receive s rd fl (x :: l) = receive s' (Nfc.half rd fl x.frameLost).1 fl' l ∧
      Rel s' r (Nfc.half rd fl x.frameLost).1 fl' ∧ executed s' = executed s ∧
      (x.requestLost = false → (Nfc.half rd fl x.frameLost).1.done = false → fl'.isSome = true) := by
  rw [receive_cons _ _ _ _ _ hd]
  by_cases c : ((Nfc.half rd fl x.frameLost).1.done || x.requestLost) = true
  · rw [if_pos c]
    refine ⟨s, none, rfl, h.half _, rfl, fun h1 h2 => ?_⟩
    rw [h1, h2] at c
    exact nomatch c
  · rw [if_neg c]
    have hdd : (Nfc.half rd fl x.frameLost).1.done = false := by
      cases hq : (Nfc.half rd fl x.frameLost).1.done
      · rfl
      · rw [hq] at c; exact absurd rfl c
    obtain ⟨s', f, h1, h2, h3⟩ := (h.half x.frameLost).request hdd (Nfc.half rd fl x.frameLost).2 x.c1 x.c2 x.e
    refine ⟨s', some f, ?_, h2, h3, fun _ _ => rfl⟩
    rw [h1]
    rfl

/-- Any number of rounds. -/
theorem Rel.rounds {r : Bytes} : ∀ (l : List Round) {s : St} {rd : Reader} {fl : Option Bytes}, Rel s r rd fl →
    ∃ s' rd' fl', receive s rd fl l = .ok (s', rd') ∧ Rel s' r rd' fl' ∧ executed s' = executed s
  | [], s, rd, fl, h => ⟨s, rd, fl, rfl, h, rfl⟩
  | x :: l, s, rd, fl, h => by
    cases hd : rd.done with
    | true => exact ⟨s, rd, fl, receive_done s rd fl _ hd, h, rfl⟩
    | false =>
      obtain ⟨s', fl', h1, h2, h3, -⟩ := h.round hd x l
      obtain ⟨s2, rd2, fl2, h4, h5, h6⟩ := Rel.rounds l h2
      exact ⟨s2, rd2, fl2, by rw [h1, h4], h5, h6.trans h3⟩

/-- Enough rounds without losses, after any other rounds, complete the response. -/
theorem Rel.complete {r : Bytes} : ∀ (l : List Round) {s : St} {rd : Reader} {fl : Option Bytes}, Rel s r rd fl →
    (∀ x ∈ l, good x) → (if fl.isSome then 0 else 1) * 29 + r.length ≤ rd.acc.length + 29 * l.length → 0 < l.length →
    ∃ s' rd', receive s rd fl l = .ok (s', rd') ∧ rd'.done = true
  | [], s, rd, fl, h, hg, hl, h0 => absurd h0 (by simp)
  | x :: l, s, rd, fl, h, hg, hl, h0 => by
    cases hd : rd.done with
    | true => exact ⟨s, rd, receive_done s rd fl _ hd, hd⟩
    | false =>
      obtain ⟨s', fl', h1, h2, h3, h4⟩ := h.round hd x l
      have hx := hg x (by simp)
      rw [h1]
      cases hd' : (Nfc.half rd fl x.frameLost).1.done with
      | true =>
        exact ⟨s', (Nfc.half rd fl x.frameLost).1, receive_done _ _ _ _ hd', hd'⟩
      | false =>
        have hs := h4 hx.2 hd'
        have key : r.length ≤ (Nfc.half rd fl x.frameLost).1.acc.length + 29 * l.length ∧ 0 < l.length := by
          rw [hx.1] at hd' ⊢
          cases fl with
          | none =>
            simp only [Option.isSome_none, Bool.false_eq_true, if_false, List.length_cons] at hl
            simp only [Nfc.half]
            have hp := h.prefix.1.length_le
            have hne : rd.acc.length ≠ r.length := by
              cases h with
              | behind n a b h fl hf =>
                have := h.ab
                simp only [List.length_take]; omega
              | even n a b h =>
                have hb : ¬ b = r.length := by simpa using hd
                have := h.bm
                simp only [List.length_take]; omega
            omega
          | some f =>
            obtain ⟨-, -, h7, h8⟩ := h.arrives
            simp only [Option.isSome_some, if_true, List.length_cons] at hl
            simp only [Nfc.half, Bool.false_eq_true, if_false] at hd' ⊢
            rw [hd'] at h8
            simp only [Bool.false_eq_true, false_iff] at h8
            omega
        exact Rel.complete l h2 (fun y hy => hg y (by simp [hy])) (by rw [hs]; simp; omega) key.2

theorem Rel.complete_after {r : Bytes} {post : List Round} (hg : ∀ x ∈ post, good x) (hp : r.length + 29 ≤ 29 * post.length) :
    ∀ (pre : List Round) {s : St} {rd : Reader} {fl : Option Bytes}, Rel s r rd fl →
    ∃ s' rd', receive s rd fl (pre ++ post) = .ok (s', rd') ∧ rd'.done = true
  | [], s, rd, fl, h => Rel.complete post h hg (by split <;> omega) (by omega)
  | x :: l, s, rd, fl, h => by
    cases hd : rd.done with
    | true => exact ⟨s, rd, receive_done s rd fl _ hd, hd⟩
    | false =>
      obtain ⟨s', fl', h1, h2, -, -⟩ := h.round hd x (l ++ post)
      obtain ⟨s2, rd2, h4, h5⟩ := Rel.complete_after hg hp l h2
      exact ⟨s2, rd2, by rw [List.cons_append, h1, h4], h5⟩

theorem frames_append (s : St) (l : List Ev) (t : St) (h : t.log = l ++ s.log) :
    frames t = l.filterMap frameOf ++ frames s := by
  simp [frames, frameOf, List.filterMap_cons, h]

/-- C48: a reader sends a command in any number of blocks, some of which get lost and are sent again. The card
acknowledges every block, executes the command once, with exactly its bytes, and asks for more time as often as it
needs. Then the reader receives the response over a channel that loses any frames in both directions. What it has
received is always a prefix of the response; when it has seen the last block it has exactly the response, and the card
waits for the next command. Enough rounds without losses complete the reception.

Missing: losses of the acknowledgements of the blocks of the command (`C48_refuted`). -/
theorem C48_exchange_partial {s : St} {n : Bool} {ps : List Part} {i : Bytes} {c1 c2 : Byte} {e : Env}
    (hr : Ready s (!n)) (hf : fits ps) (hi : i.length ≤ 29) (hl : (bytes ps ++ i).length ≤ 1340)
    (hw : Waits e.mid) (hresp : e.resp.length ≤ 1340) :
    ∃ s1 r f, run s (chained n ps ++ [.irq (.frame (iBlock (after n ps) false i c1 c2)), .loop e]) = .ok s1 ∧
      ((WellFormed (bytes ps ++ i) ∧ r = e.resp ++ [e.sw1, e.sw2] ∧ executed s1 = (bytes ps ++ i, r) :: executed s) ∨
       (¬ WellFormed (bytes ps ++ i) ∧ r = [0x67, 0x00] ∧ executed s1 = executed s)) ∧
      (∃ k, frames s1 = f :: (List.replicate k [0xF2, 1] ++ acks n ps ++ frames s)) ∧
      ∀ rounds, ∃ s2 rd, receive s1 ⟨after n ps, [], false⟩ (some f) rounds = .ok (s2, rd) ∧
        executed s2 = executed s1 ∧ rd.acc <+: r ∧ (rd.done = true → rd.acc = r ∧ Ready s2 (!rd.n)) ∧
        (∀ pre post, rounds = pre ++ post → (∀ x ∈ post, good x) → r.length + 29 ≤ 29 * post.length → rd.done = true) := by
  obtain ⟨t, h1, h2, h3⟩ := chain_all (acc := []) hf (Ready.receiving hr) (by
      simp only [List.length_append, List.nil_append] at hl ⊢; omega)
  rw [List.nil_append] at h2
  obtain ⟨s1, r, h4, h5, h6⟩ := last_block (c1 := c1) (c2 := c2) h2 hi hl hw hresp
  have hex : executed t = executed s := by
    unfold executed
    rw [h3, List.filterMap_append]
    have : ∀ l : List Bytes, (l.map Ev.sent).filterMap execOf = [] := by
      intro l; induction l with
      | nil => rfl
      | cons x l ih => simp [execOf]
    rw [this]
    rfl
  have hfr : frames t = acks n ps ++ frames s := by
    rw [frames_append s _ t h3]
    congr 1
    induction acks n ps with
    | nil => rfl
    | cons x l ih => simpa [frameOf] using ih
  refine ⟨s1, r, blockOf (after n ps) r 0 (min 29 r.length), ?_, ?_, ?_, ?_⟩
  · rw [run_append, h1]
    exact h4
  · rcases h6 with ⟨hw, hr, k, hlog⟩ | ⟨hw, hr, hlog⟩
    · refine Or.inl ⟨hw, hr, ?_⟩
      rw [← hex]
      simp [executed, execOf, List.filterMap_cons, List.filterMap_replicate, hlog]
    · refine Or.inr ⟨hw, hr, ?_⟩
      rw [← hex]
      simp [executed, execOf, List.filterMap_cons, List.filterMap_replicate, hlog]
  · rcases h6 with ⟨hw, hr, k, hlog⟩ | ⟨hw, hr, hlog⟩
    · refine ⟨k, ?_⟩
      rw [List.append_assoc, ← hfr]
      simp [frames, frameOf, List.filterMap_cons, List.filterMap_replicate, hlog]
    · refine ⟨0, ?_⟩
      rw [List.append_assoc, ← hfr]
      simp [frames, frameOf, List.filterMap_cons, List.filterMap_replicate, hlog]
  · intro rounds
    have hrel : Rel s1 r ⟨after n ps, [], false⟩ (some (blockOf (after n ps) r 0 (min 29 r.length))) := by
      have := Rel.behind _ 0 _ h5 _ (Or.inr rfl)
      simpa using this
    obtain ⟨s2, rd, fl, h7, h8, h9⟩ := Rel.rounds rounds hrel
    refine ⟨s2, rd, h7, h9, h8.prefix.1, h8.prefix.2, ?_⟩
    rintro pre post rfl hg hp
    obtain ⟨s3, rd3, h10, h11⟩ := Rel.complete_after hg hp pre hrel
    rw [h7] at h10
    cases h10
    exact h11

end Verif.Nfc
