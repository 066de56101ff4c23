import Verif.Lemmas.Hid
/-
Receiving a message over CTAPHID.
-/
namespace Verif.Hid
open Verif.Spec.Hid

/-- `j` continuation frames of the message `m` have been received. -/
structure Mid (s : St) (cid : UInt32) (cmd : Byte) (m : Bytes) (j t0 : Nat) : Prop where
  has : s.has = false
  busy : s.ch.busy = true
  cid : s.ch.cid = cid
  cmd : s.ch.cmd = cmd
  total : s.ch.total = m.length
  cur : s.ch.cur = 57 + 59 * j
  lt : 57 + 59 * j < m.length
  seq : s.ch.seq = UInt8.ofNat j
  data : s.ch.data.take (57 + 59 * j) = m.take (57 + 59 * j)
  len : s.ch.data.length = 1300
  expire : s.ch.expire = t0 + 800

/-- A message is complete and about to be dispatched. -/
structure Full (s : St) (cid : UInt32) (cmd : Byte) (m : Bytes) : Prop where
  has : s.has = false
  cid : s.ch.cid = cid
  cmd : s.ch.cmd = cmd
  total : s.ch.total = m.length
  data : s.ch.data.take m.length = m
  len : s.ch.data.length = 1300

theorem expired_idle {s : St} {t : Nat} (h : s.ch.busy = false) : expired s t = s := by
  simp [expired, h]

theorem expired_not {s : St} {t : Nat} (h : t ≤ s.ch.expire) : expired s t = s := by
  simp [expired, Nat.not_lt.2 h]

/-- The first frame. -/
theorem front_first {s : St} {cid : UInt32} {cmd : Byte} {m : Bytes} {tick : Nat} {wait : Bool}
    (hidle : s.ch.busy = false) (hlen : s.ch.data.length = 1300)
    (hcid : cid ≠ 0) (hb : cid ≠ broadcast ∨ cmd = cInit) (hc : cmd &&& 0x80 = 0x80) (hm : m.length ≤ 1300)
    (ht : tick + 800 < 2 ^ 32) (f : Frame)
    (hf : f = ⟨cid, [cmd, UInt8.ofNat (m.length / 256), UInt8.ofNat m.length] ++ pad 57 (m.take 57)⟩) :
    (m.length ≤ 57 ∧ ∃ s', front { s with frame := f, has := true } wait tick = .ok (s', true) ∧ Full s' cid cmd m ∧
      s'.log = s.log ∧ s'.arr = s.arr) ∨
    (57 < m.length ∧ ∃ s', front { s with frame := f, has := true } wait tick = .ok (s', false) ∧
      Mid s' cid cmd m 0 tick ∧ s'.log = s.log ∧ s'.arr = s.arr) := by
  have hp : (pad 57 (m.take 57)).length = 57 := by
    simp only [pad, List.length_append, List.length_take, List.length_replicate]; omega
  have hfc : f.cmd = cmd := by rw [hf]; rfl
  have hfi : f.isInit = true := by simp [Frame.isInit, hfc, hc]
  have hfid : f.cid = cid := by rw [hf]
  have hfl : f.len = m.length := by
    rw [hf]; simp only [Frame.len, be16, List.cons_append, List.nil_append, List.getD_cons_succ, List.getD_cons_zero,
      UInt8.toNat_ofNat']
    omega
  have hfd : f.initData.take (min m.length 57) = m.take 57 := by
    rw [hf]
    simp only [Frame.initData, List.cons_append, List.nil_append, List.drop_succ_cons, List.drop_zero]
    unfold pad
    rw [List.take_append_of_le_length (by simp only [List.length_take]; omega), List.take_take]
    by_cases hm : m.length ≤ 57
    · rw [List.take_of_length_le (by omega), List.take_of_length_le (by omega)]
    · congr 1; omega
  have hdl : (m.take 57).length = min m.length 57 := by simp [Nat.min_comm]
  obtain ⟨b', hw, hbl, hbt⟩ := wrRange_take (b := s.ch.data) (d := m.take 57) (off := 0)
    (by rw [hdl]; omega)
  rw [hdl, Nat.zero_add, List.take_zero, List.nil_append] at hbt
  have key : front { s with frame := f, has := true } wait tick = .ok
      (if min m.length 57 = m.length then
        ({ s with frame := f, has := false, ch := ⟨cid, m.length, min m.length 57, 2 ^ 32 - 1, true, cmd, 0, b'⟩ }, true)
      else ({ s with frame := f, has := false, ch := ⟨cid, m.length, min m.length 57, tick + 800, true, cmd, 0, b'⟩ },
        false)) := by
    unfold front
    simp only [expired, hidle, Bool.false_and, Bool.false_eq_true, if_false, Bool.not_true]
    rw [if_neg]
    · simp only [hfi, if_true, takeInit, Bool.and_false, Bool.false_and, Bool.false_eq_true, if_false, hfl,
        gt_iff_lt, Nat.not_lt.2 hm, hfd, hw, ok_bind, consume, hfid, hfc, Nat.mod_eq_of_lt ht, pure_eq_ok,
        Bool.true_and, beq_iff_eq]
      split <;> rfl
    · rw [hfid, hfc]
      simp only [Bool.or_eq_true, beq_iff_eq, Bool.and_eq_true, bne_iff_ne, ne_eq, not_or, not_and, Classical.not_not]
      refine ⟨hcid, fun h => ?_⟩
      rcases hb with hb | hb
      · exact absurd h hb
      · exact hb
  by_cases h57 : m.length ≤ 57
  · rw [if_pos (by omega)] at key
    refine .inl ⟨h57, _, key, ?_, rfl, rfl⟩
    · refine ⟨rfl, rfl, rfl, rfl, ?_, hbl.trans hlen⟩
      have h2 : min m.length 57 = m.length := by omega
      rw [h2] at hbt
      exact hbt.trans (List.take_of_length_le h57)
  · rw [if_neg (by omega)] at key
    refine .inr ⟨Nat.lt_of_not_le h57, _, key, ?_, rfl, rfl⟩
    · have h2 : min m.length 57 = 57 := by omega
      rw [h2] at hbt
      exact ⟨rfl, rfl, rfl, rfl, rfl, by simp [h2], by simpa using Nat.lt_of_not_le h57, rfl, hbt, hbl.trans hlen, rfl⟩

/-- A continuation frame. -/
theorem front_cont {s : St} {cid : UInt32} {cmd : Byte} {m : Bytes} {j t0 tick : Nat} {wait : Bool}
    (h : Mid s cid cmd m j t0) (hcid : cid ≠ 0) (hb : cid ≠ broadcast) (hm : m.length ≤ 1300)
    (ht : tick ≤ t0 + 800) (f : Frame)
    (hf : f = ⟨cid, UInt8.ofNat j :: pad 59 ((m.drop (57 + 59 * j)).take 59)⟩) :
    (m.length ≤ 57 + 59 * (j + 1) ∧ ∃ s', front { s with frame := f, has := true } wait tick = .ok (s', true) ∧
      Full s' cid cmd m ∧ s'.log = s.log ∧ s'.arr = s.arr) ∨
    (57 + 59 * (j + 1) < m.length ∧ ∃ s', front { s with frame := f, has := true } wait tick = .ok (s', false) ∧
      Mid s' cid cmd m (j + 1) t0 ∧ s'.log = s.log ∧ s'.arr = s.arr) := by
  have hj : j < 128 := by have := h.lt; omega
  have hfc : f.cmd = UInt8.ofNat j := by rw [hf]; rfl
  have hand : UInt8.ofNat j &&& 0x80 = 0 ∧ UInt8.ofNat j &&& 0x7F = UInt8.ofNat j := by
    have : ∀ i : Fin 128, UInt8.ofNat i.val &&& 0x80 = 0 ∧ UInt8.ofNat i.val &&& 0x7F = UInt8.ofNat i.val := by decide
    exact this ⟨j, hj⟩
  have hfi : f.isInit = false := by simp [Frame.isInit, hfc, hand.1]
  have hfq : f.seq = UInt8.ofNat j := by simp [Frame.seq, hfc, hand.2]
  have hfid : f.cid = cid := by rw [hf]
  have hlt := h.lt
  have hfd : f.contData.take (min (m.length - (57 + 59 * j)) 59) = (m.drop (57 + 59 * j)).take 59 := by
    rw [hf]
    simp only [Frame.contData, List.drop_succ_cons, List.drop_zero]
    unfold pad
    rw [List.take_append_of_le_length (by simp only [List.length_take, List.length_drop]; omega), List.take_take]
    by_cases hm : m.length ≤ 57 + 59 * (j + 1)
    · rw [List.take_of_length_le (by simp only [List.length_drop]; omega),
        List.take_of_length_le (by simp only [List.length_drop]; omega)]
    · congr 1; omega
  have hdl : ((m.drop (57 + 59 * j)).take 59).length = min (m.length - (57 + 59 * j)) 59 := by
    simp [Nat.min_comm]
  obtain ⟨b', hw, hbl, hbt⟩ := wrRange_take (b := s.ch.data) (d := (m.drop (57 + 59 * j)).take 59)
    (off := 57 + 59 * j) (by rw [hdl, h.len]; omega)
  rw [hdl, h.data, ← List.take_add] at hbt
  have key : front { s with frame := f, has := true } wait tick = .ok
      (if 57 + 59 * j + min (m.length - (57 + 59 * j)) 59 = m.length then
        ({ s with frame := f, has := false, ch := ⟨cid, m.length, 57 + 59 * j + min (m.length - (57 + 59 * j)) 59,
          2 ^ 32 - 1, true, cmd, UInt8.ofNat j + 1, b'⟩ }, true)
      else
        ({ s with frame := f, has := false, ch := ⟨cid, m.length, 57 + 59 * j + min (m.length - (57 + 59 * j)) 59,
          t0 + 800, true, cmd, UInt8.ofNat j + 1, b'⟩ }, false)) := by
    unfold front
    rw [expired_not (by simp only [h.expire]; exact ht)]
    simp only [Bool.not_true, Bool.false_eq_true, if_false]
    rw [if_neg, if_neg]
    · simp only [hfi, Bool.false_eq_true, if_false, takeCont, h.busy, Bool.not_true, hfq, h.seq, bne_self_eq_false,
        h.total, h.cur, hfd, hw, ok_bind, consume, hfid, pure_eq_ok, Bool.true_and, beq_iff_eq, h.cmd, h.expire]
      split <;> rfl
    · simp [hfid, h.cid]
    · rw [hfid]
      simp [hcid, hb]
  have hseq : UInt8.ofNat j + 1 = UInt8.ofNat (j + 1) := by rw [UInt8.ofNat_add]; rfl
  by_cases hle : m.length ≤ 57 + 59 * (j + 1)
  · rw [if_pos (by omega)] at key
    refine .inl ⟨hle, _, key, ?_, rfl, rfl⟩
    · refine ⟨rfl, rfl, rfl, rfl, ?_, hbl.trans h.len⟩
      have h2 : 57 + 59 * j + min (m.length - (57 + 59 * j)) 59 = m.length := by omega
      rw [h2] at hbt
      refine hbt.trans (List.take_of_length_le (by omega))
  · rw [if_neg (by omega)] at key
    refine .inr ⟨Nat.lt_of_not_le hle, _, key, ?_, rfl, rfl⟩
    · have h2 : 57 + 59 * j + min (m.length - (57 + 59 * j)) 59 = 57 + 59 * (j + 1) := by omega
      have h3 : 57 + 59 * j + 59 = 57 + 59 * (j + 1) := by omega
      rw [h2, h3] at hbt
      exact ⟨rfl, rfl, rfl, rfl, rfl, h2, Nat.lt_of_not_le hle, hseq, hbt, hbl.trans h.len, rfl⟩

/-- A frame of another channel. -/
theorem front_other {s : St} {cid : UInt32} {cmd : Byte} {m : Bytes} {j t0 tick : Nat} {wait : Bool}
    (h : Mid s cid cmd m j t0) (ht : tick ≤ t0 + 800) (f : Frame) (hf : f.cid ≠ cid) :
    ∃ s', front { s with frame := f, has := true } wait tick = .ok (s', false) ∧ Mid s' cid cmd m j t0 ∧
      s'.log = .sent (refusal f) :: s.log ∧ (s.arr = [] → s'.arr = []) := by
  have mk : ∀ code, ∃ a, consume (sendError { s with frame := f, has := true } f.cid code) =
      { s with frame := errorFrame f.cid code, has := false, arr := a, log := .sent (errorFrame f.cid code) :: s.log } ∧
      (s.arr = [] → a = []) := by
    intro code
    unfold sendError
    by_cases ha : s.arr = []
    · rw [sendFrame_quiet (by exact ha)]
      exact ⟨[], by simp [consume, ha, errorFrame, initBody, pad, cError], fun _ => rfl⟩
    · obtain ⟨a, e⟩ := sendFrame_has (s := { s with frame := ⟨f.cid, initBody cError 1 [code]⟩, has := true }) rfl
      refine ⟨a, ?_, fun h => absurd h ha⟩
      simp only [e]
      simp [consume, errorFrame, initBody, pad, cError]
  have fin : ∀ code a, Mid { s with frame := errorFrame f.cid code, has := false, arr := a, log := .sent (errorFrame f.cid code) :: s.log }
      cid cmd m j t0 := fun code a => ⟨rfl, h.busy, h.cid, h.cmd, h.total, h.cur, h.lt, h.seq, h.data, h.len, h.expire⟩
  unfold front
  rw [expired_not (by simp only [h.expire]; exact ht)]
  simp only [Bool.not_true, Bool.false_eq_true, if_false]
  split
  · next hz =>
    obtain ⟨a, ha, ha'⟩ := mk eInvalidCid
    simp only [Bool.or_eq_true, beq_iff_eq, Bool.and_eq_true, bne_iff_ne] at hz
    refine ⟨_, by rw [ha]; rfl, fin _ a, ?_, ha'⟩
    rw [refusal, if_pos (by exact hz)]; rfl
  · next hz =>
    simp only [Bool.or_eq_true, beq_iff_eq, Bool.and_eq_true, bne_iff_ne] at hz
    rw [if_pos (by simp [h.busy, h.cid, hf])]
    obtain ⟨a, ha, ha'⟩ := mk eBusy
    refine ⟨_, by rw [ha]; rfl, fin _ a, ?_, ha'⟩
    rw [refusal, if_neg (by exact hz)]; rfl

/-! ### The dispatch -/

theorem sent_cons_sent (f : Frame) (l : List Ev) : sent (.sent f :: l) = sent l ++ [f] := by
  simp [sent]

theorem sent_frames (fs : List Frame) (l : List Ev) : sent ((fs.map Ev.sent).reverse ++ l) = sent l ++ fs := by
  simp only [sent, List.filterMap_append, List.reverse_append, List.filterMap_reverse, List.reverse_reverse]
  congr 1
  induction fs <;> simp_all

theorem dispatched_frames (fs : List Frame) (l : List Ev) :
    dispatched ((fs.map Ev.sent).reverse ++ l) = dispatched l := by
  simp only [dispatched, List.filterMap_append, List.filterMap_reverse]
  rw [show (fs.map Ev.sent).filterMap _ = [] from ?_]
  · simp
  · induction fs <;> simp_all

/-- Nothing is in progress. -/
structure Idle (s : St) : Prop where
  has : s.has = false
  busy : s.ch.busy = false
  len : s.ch.data.length = 1300

theorem sendError_quiet {s : St} (ha : s.arr = []) (cid : UInt32) (code : Byte) :
    sendError s cid code =
      { s with frame := errorFrame cid code, log := .sent (errorFrame cid code) :: s.log } := by
  unfold sendError
  rw [sendFrame_quiet (by exact ha)]
  rfl

theorem encode_error (cid : UInt32) (code : Byte) : encode cid 0xBF [code] = [errorFrame cid code] := by
  simp [encode, errorFrame, conts_nil]

/-- A complete message is dispatched once and answered with its response. -/
theorem finish_quiet {s : St} {cid : UInt32} {cmd : Byte} {m : Bytes} {e : Env} (h : Full s cid cmd m)
    (ha : s.arr = []) (hc : cmd &&& 0x80 = 0x80) (hm : m.length ≤ 1300) (hr : e.resp.length ≤ 1298)
    (hi : cmd = cInit → 8 ≤ m.length) :
    ∃ s', finish s e [] = .ok s' ∧ Idle s' ∧ dispatched s'.log = (cid, cmd, m) :: dispatched s.log ∧
      sent s'.log = sent s.log ++
        (match response cid cmd m (if cmd = cMsg then e.resp ++ [e.sw1, e.sw2] else e.resp) e.rnd with
          | some (c, d) => encode cid c d
          | none => []) := by
  have hor : 0x80 ||| cmd = cmd := by
    have : ∀ c : Byte, c &&& 0x80 = 0x80 → 0x80 ||| c = c := by decide +kernel
    exact this cmd hc
  obtain ⟨hhas, rfl, rfl, htot, hdata, hlen⟩ := h
  have hmsg : message s = m := by simp [message, htot, hdata]
  obtain ⟨s0, hs0⟩ : ∃ s0, s0 = { s with log := .msg s.ch.cid s.ch.cmd (message s) :: s.log } := ⟨_, rfl⟩
  have hd0 : dispatched s0.log = (s.ch.cid, s.ch.cmd, m) :: dispatched s.log := by
    rw [hs0]; simp [dispatched, hmsg]
  have hl0 : sent s0.log = sent s.log := by rw [hs0]; simp [sent]
  have ha0 : s0.arr = [] := by rw [hs0]; exact ha
  have hch : s0.ch = s.ch := by rw [hs0]
  have hh0 : s0.has = false := by rw [hs0]; exact hhas
  -- a response out of the buffer
  have resp : ∀ (s1 : St) (d : Bytes) (n : Nat) (c : Byte), s1.arr = [] → s1.ch.data.length = 1300 → n ≤ 1300 →
      s1.ch.data.take n = d → 0x80 ||| c = c → dispatched s1.log = dispatched s0.log → sent s1.log = sent s0.log →
      ∃ s2 : St, sendResponse s1 s.ch.cid c n = .ok s2 ∧ s2.ch.data.length = 1300 ∧
        dispatched s2.log = dispatched s0.log ∧ sent s2.log = sent s.log ++ encode s.ch.cid c d := by
    intro s1 d n c h1 h2 h3 h4 h5 h6 h7
    obtain ⟨fr, e⟩ := sendResponse_quiet (s := s1) (cid := s.ch.cid) (cmd := c) (len := n) h1 (by omega) h5
    refine ⟨_, e, h2, ?_, ?_⟩
    · simp only [dispatched_frames, h6]
    · simp only [sent_frames, h7, hl0, h4]
  have err : ∀ code, ∃ s2 : St, sendError s0 s.ch.cid code = s2 ∧ s2.ch.data.length = 1300 ∧
        dispatched s2.log = dispatched s0.log ∧ sent s2.log = sent s.log ++ encode s.ch.cid 0xBF [code] := by
    intro code
    refine ⟨_, sendError_quiet ha0 s.ch.cid code, by rw [hch]; exact hlen, by simp [dispatched], ?_⟩
    rw [encode_error, sent_cons_sent, hl0]
  have done : ∀ (s2 : St) (fs : List Frame), s2.ch.data.length = 1300 → dispatched s2.log = dispatched s0.log →
      sent s2.log = sent s.log ++ fs →
      Idle (consume { s2 with ch := { s2.ch with busy := false } }) ∧
      dispatched (consume { s2 with ch := { s2.ch with busy := false } }).log = (s.ch.cid, s.ch.cmd, m) :: dispatched s.log ∧
      sent (consume { s2 with ch := { s2.ch with busy := false } }).log = sent s.log ++ fs := by
    intro s2 fs h1 h2 h3
    exact ⟨⟨rfl, rfl, h1⟩, h2.trans hd0, h3⟩
  have wr : ∀ d : Bytes, d.length ≤ 1300 → ∃ b', wrRange s0.ch.data 0 d = .ok b' ∧ b'.length = 1300 ∧
      b'.take d.length = d := by
    intro d hd
    obtain ⟨b', h1, h2, h3⟩ := wrRange_take (b := s0.ch.data) (d := d) (off := 0) (by rw [hch, hlen]; omega)
    refine ⟨b', h1, by rw [h2, hch, hlen], by simpa using h3⟩
  unfold finish
  rw [← hs0]
  simp only [hch, htot, beq_iff_eq]
  unfold response
  by_cases c1 : s.ch.cmd = cMsg
  · have c1' : s.ch.cmd = 0x83 := c1
    simp only [if_pos c1, if_pos c1']
    split
    · obtain ⟨s2, e1, h1, h2, h3⟩ := err eInvalidLen
      rw [e1]
      exact ⟨_, rfl, done _ _ h1 h2 h3⟩
    · next h4 =>
      unfold execMsg
      have hl5 : s0.ch.data.length = 1300 := by rw [hch, hlen]
      rw [rdRange_ok (by omega), rd_ok (i := 5) (by omega), rd_ok (i := 6) (by omega)]
      simp only [ok_bind, nested]
      obtain ⟨b', w1, w2, w3⟩ := wr (e.resp ++ [e.sw1, e.sw2]) (by simp; omega)
      rw [w1]
      simp only [ok_bind, hch]
      obtain ⟨s2, e1, h1, h2, h3⟩ := resp
        { s0 with ch := { s.ch with data := b' }, log := .apdu ((s0.ch.data.drop 0).take 4) (be16 s0.ch.data[5] s0.ch.data[6]) :: s0.log }
        (e.resp ++ [e.sw1, e.sw2]) (e.resp.length + 2) s.ch.cmd ha0 w2 (by omega) (by simpa using w3) hor (by simp [dispatched]) (by simp [sent])
      simp only [hch] at e1
      rw [e1]
      exact ⟨_, rfl, done _ _ h1 h2 h3⟩
  · rw [if_neg c1, if_neg (show ¬ s.ch.cmd = 0x83 from c1)]
    by_cases c2 : s.ch.cmd = cCbor
    · have c2' : s.ch.cmd = 0x90 := c2
      simp only [if_pos c2, if_pos c2', List.length_eq_zero_iff]
      split
      · obtain ⟨s2, e1, h1, h2, h3⟩ := err eInvalidLen
        rw [e1]
        exact ⟨_, rfl, done _ _ h1 h2 h3⟩
      · unfold execCbor
        simp only [ok_bind, nested]
        obtain ⟨b', w1, w2, w3⟩ := wr e.resp (by omega)
        rw [w1]
        simp only [ok_bind, hch]
        obtain ⟨s2, e1, h1, h2, h3⟩ := resp { s0 with ch := { s.ch with data := b' } } e.resp e.resp.length 0x90
          ha0 w2 (by omega) w3 (by decide) rfl rfl
        simp only [hch] at e1
        rw [show cCbor = (0x90 : Byte) from rfl, e1]
        exact ⟨_, rfl, done _ _ h1 h2 (by rw [h3, c2'])⟩
    · rw [if_neg c2, if_neg (show ¬ s.ch.cmd = 0x90 from c2)]
      by_cases c3 : s.ch.cmd = cInit
      · have c3' : s.ch.cmd = 0x86 := c3
        have h8 := hi c3
        rw [if_pos c3, if_pos c3']
        unfold execInit
        simp only [hch]
        obtain ⟨b', w1, w2, w3⟩ := wrRange_take (b := s.ch.data) (off := 8)
          (d := [(if (s.ch.cid == broadcast) = true then e.rnd else s.ch.cid).toUInt8,
            ((if (s.ch.cid == broadcast) = true then e.rnd else s.ch.cid) >>> 8).toUInt8,
            ((if (s.ch.cid == broadcast) = true then e.rnd else s.ch.cid) >>> 16).toUInt8,
            ((if (s.ch.cid == broadcast) = true then e.rnd else s.ch.cid) >>> 24).toUInt8] ++ [2, 1, 0, 0, 4])
          (by rw [hlen]; simp)
        simp only [w1, ok_bind]
        have hn : s.ch.data.take 8 = m.take 8 := by
          rw [← hdata, List.take_take, Nat.min_eq_left h8]
        rw [hn] at w3
        obtain ⟨s2, e1, h1, h2, h3⟩ := resp { s0 with ch := { s.ch with data := b' } } _ 17 s.ch.cmd
          ha0 (w2.trans hlen) (by omega) (by exact w3) hor rfl rfl
        rw [e1]
        refine ⟨_, rfl, done _ _ h1 h2 ?_⟩
        rw [h3]
        simp only [broadcast, beq_iff_eq, List.append_assoc]
      · rw [if_neg c3, if_neg (show ¬ s.ch.cmd = 0x86 from c3)]
        by_cases c4 : s.ch.cmd = cPing
        · rw [if_pos c4, if_pos (show s.ch.cmd = 0x81 from c4)]
          obtain ⟨s2, e1, h1, h2, h3⟩ := resp s0 m m.length s.ch.cmd ha0 (by rw [hch, hlen]) hm (by rw [hch, hdata])
            hor rfl rfl
          rw [e1]
          exact ⟨_, rfl, done _ _ h1 h2 h3⟩
        · rw [if_neg c4, if_neg (show ¬ s.ch.cmd = 0x81 from c4)]
          by_cases c5 : s.ch.cmd = cWink
          · rw [if_pos c5, if_pos (show s.ch.cmd = 0x88 from c5)]
            obtain ⟨s2, e1, h1, h2, h3⟩ := resp s0 [] 0 s.ch.cmd ha0 (by rw [hch, hlen]) (by omega) rfl hor rfl rfl
            rw [e1]
            exact ⟨_, rfl, done _ _ h1 h2 h3⟩
          · rw [if_neg c5, if_neg (show ¬ s.ch.cmd = 0x88 from c5)]
            by_cases c6 : s.ch.cmd = cCancel
            · rw [if_pos c6, if_pos (show s.ch.cmd = 0x91 from c6)]
              exact ⟨_, rfl, done s0 [] (by rw [hch, hlen]) rfl (by simp [hl0])⟩
            · rw [if_neg c6, if_neg (show ¬ s.ch.cmd = 0x91 from c6)]
              obtain ⟨s2, e1, h1, h2, h3⟩ := err eInvalidCmd
              rw [e1]
              exact ⟨_, rfl, done _ _ h1 h2 h3⟩

end Verif.Hid
