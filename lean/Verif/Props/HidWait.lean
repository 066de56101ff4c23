import Verif.Lemmas.HidRecv
/-
C78: what happens on CTAPHID while a command waits for the user.
-/
namespace Verif.Hid
open Verif.Spec.Hid

/-- A command of channel `cid` is being processed. -/
structure Waiting (s : St) (cid : UInt32) : Prop where
  has : s.has = false
  busy : s.ch.busy = true
  cid : s.ch.cid = cid
  expire : s.ch.expire = 2 ^ 32 - 1
  len : s.ch.data.length = 1300
  arr : s.arr = []

/-- What a command is answered on the channel that waits: MSG, CBOR, INIT and PING get CHANNEL_BUSY, WINK is obeyed, CANCEL gets
no answer, anything else is not a command. -/
def whileWaiting (cid : UInt32) (cmd : Byte) : List Frame :=
  if cmd = 0x83 ∨ cmd = 0x90 ∨ cmd = 0x86 ∨ cmd = 0x81 then [errorFrame cid 0x06]
  else if cmd = 0x88 then encode cid 0x88 []
  else if cmd = 0x91 then []
  else [errorFrame cid 0x01]

theorem front_nested {s : St} {cid : UInt32} {cmd : Byte} {m : Bytes} {tick : Nat} (h : Waiting s cid) (hcid : cid ≠ 0)
    (hb : cid ≠ broadcast ∨ cmd = cInit) (hc : cmd &&& 0x80 = 0x80) (hm : m.length ≤ 57) (ht : tick < 2 ^ 32) (f : Frame)
    (hf : f = ⟨cid, [cmd, UInt8.ofNat (m.length / 256), UInt8.ofNat m.length] ++ pad 57 (m.take 57)⟩) :
    ∃ s', front { s with frame := f, has := true } true tick = .ok (s', true) ∧ Full s' cid cmd m ∧
      s'.log = s.log ∧ s'.arr = s.arr := by
  have hp : (pad 57 (m.take 57)).length = 57 := by
    simp only [pad, List.length_append, List.length_take, List.length_replicate]; omega
  have hfc : f.cmd = cmd := by rw [hf]; rfl
  have hfi : f.isInit = true := by simp [Frame.isInit, hfc, hc]
  have hfid : f.cid = cid := by rw [hf]
  have hfl : f.len = m.length := by
    rw [hf]; simp only [Frame.len, be16, List.cons_append, List.nil_append, List.getD_cons_succ, List.getD_cons_zero,
      UInt8.toNat_ofNat']
    omega
  have hfd : f.initData.take (min m.length 57) = m.take 57 := by
    rw [hf]
    simp only [Frame.initData, List.cons_append, List.nil_append, List.drop_succ_cons, List.drop_zero]
    unfold pad
    rw [List.take_append_of_le_length (by simp only [List.length_take]; omega), List.take_take]
    rw [List.take_of_length_le (by omega), List.take_of_length_le (by omega)]
  have hdl : (m.take 57).length = min m.length 57 := by simp [Nat.min_comm]
  obtain ⟨b', hw, hbl, hbt⟩ := wrRange_take (b := s.ch.data) (d := m.take 57) (off := 0)
    (by rw [hdl, h.len]; omega)
  rw [hdl, Nat.zero_add, List.take_zero, List.nil_append] at hbt
  have hmin : min m.length 57 = m.length := by omega
  have key : front { s with frame := f, has := true } true tick = .ok
        ({ s with frame := f, has := false, ch := ⟨cid, m.length, min m.length 57, 2 ^ 32 - 1, true, cmd, 0, b'⟩ }, true) := by
    unfold front
    rw [expired_not (by simp only [h.expire]; omega)]
    simp only [Bool.not_true, Bool.false_eq_true, if_false]
    rw [if_neg, if_neg]
    · simp only [hfi, if_true, takeInit, Bool.not_true, Bool.false_and, Bool.false_eq_true, if_false, hfl,
        gt_iff_lt, Nat.not_lt.2 (show m.length ≤ 1300 by omega), hfd, hw, ok_bind, consume, hfid, hfc, pure_eq_ok,
        Bool.true_and, beq_iff_eq]
      rw [if_pos hmin]
    · simp [hfid, h.cid]
    · rw [hfid, hfc]
      simp only [Bool.or_eq_true, beq_iff_eq, Bool.and_eq_true, bne_iff_ne, ne_eq, not_or, not_and, Classical.not_not]
      refine ⟨hcid, fun h => ?_⟩
      rcases hb with hb | hb
      · exact absurd h hb
      · exact hb
  refine ⟨_, key, ⟨rfl, rfl, rfl, rfl, ?_, hbl.trans h.len⟩, rfl, rfl⟩
  rw [hmin] at hbt
  exact hbt.trans (List.take_of_length_le hm)

/-- A command that arrives on the waiting channel in one packet is answered, not executed; it is a cancellation if and only if it is
CANCEL. -/
theorem C78_own_channel (s : St) (cid : UInt32) (h : Waiting s cid) (hcid : cid ≠ 0) (cmd : Byte) (hb : cid ≠ broadcast ∨ cmd = cInit)
    (hc : cmd &&& 0x80 = 0x80) (m : Bytes) (hm : m.length ≤ 57) (tick : Nat) (ht : tick < 2 ^ 32) :
    ∃ s' f, encode cid cmd m = [f] ∧ loopWait (outEvent s f) tick = .ok (s', cmd == 0x91) ∧
      sent s'.log = sent s.log ++ whileWaiting cid cmd ∧ dispatched s'.log = dispatched s.log := by
  have hz : m.drop 57 = [] := List.drop_eq_nil_of_le hm
  obtain ⟨s1, e, hf, hlog, harr⟩ := front_nested h hcid hb hc hm ht _ rfl
  rw [h.arr] at harr
  have ho : ∀ f, outEvent s f = { s with frame := f, has := true } := by
    intro f
    unfold outEvent
    rw [h.has]
    rfl
  have key : ∃ s', finishWait s1 = .ok (s', cmd == 0x91) ∧ sent s'.log = sent s1.log ++ whileWaiting cid cmd ∧
      dispatched s'.log = dispatched s1.log := by
    unfold finishWait
    simp only [hf.cmd, hf.cid]
    by_cases h1 : (cmd == cMsg || cmd == cCbor || cmd == cInit || cmd == cPing) = true
    · have h2 : cmd = 0x83 ∨ cmd = 0x90 ∨ cmd = 0x86 ∨ cmd = 0x81 := by
        simpa [cMsg, cCbor, cInit, cPing, or_assoc] using h1
      have h3 : (cmd == 0x91) = false := by rcases h2 with rfl | rfl | rfl | rfl <;> rfl
      simp only [h1, if_true, pure_eq_ok, ok_bind, h3]
      refine ⟨_, rfl, ?_, ?_⟩
      · rw [show whileWaiting cid cmd = [errorFrame cid 0x06] by unfold whileWaiting; rw [if_pos h2]]
        simp only [sendError, consume]
        rw [sendFrame_quiet (by exact harr)]
        simp [sent, errorFrame, initBody, pad, cError, eBusy]
      · simp only [sendError, consume]
        rw [sendFrame_quiet (by exact harr)]
        simp [dispatched]
    have h2 : ¬ (cmd = 0x83 ∨ cmd = 0x90 ∨ cmd = 0x86 ∨ cmd = 0x81) := by
      simpa [cMsg, cCbor, cInit, cPing, or_assoc] using h1
    simp only [h1]
    by_cases h3 : cmd = 0x88
    · subst h3
      obtain ⟨fr, e⟩ := sendResponse_quiet
        (s := { s1 with log := .nested cid 0x88 (message s1) :: s1.log }) (cid := cid) (cmd := 0x88) (len := 0) harr (Nat.zero_le _) (by decide)
      rw [if_neg (by decide), if_pos (by decide), e]
      simp only [pure_eq_ok, ok_bind]
      refine ⟨_, rfl, ?_, ?_⟩
      · rw [show whileWaiting cid 0x88 = encode cid 0x88 [] by unfold whileWaiting; rw [if_neg h2, if_pos rfl]]
        simp only [consume]
        rw [sent_frames]
        simp [sent]
      · simp only [consume]
        simp [dispatched]
    by_cases h4 : cmd = 0x91
    · subst h4
      rw [if_neg (by decide), if_neg (by decide), if_pos (by decide)]
      simp only [pure_eq_ok, ok_bind]
      refine ⟨_, rfl, ?_, ?_⟩
      · rw [show whileWaiting cid 0x91 = [] by unfold whileWaiting; rw [if_neg h2, if_neg (by decide), if_pos rfl]]
        simp [consume, sent]
      · simp [consume, dispatched]
    · rw [if_neg (by decide), if_neg (by simpa [cWink] using h3), if_neg (by simpa [cCancel] using h4)]
      simp only [pure_eq_ok, ok_bind, show (cmd == 0x91) = false by simpa using h4]
      refine ⟨_, rfl, ?_, ?_⟩
      · rw [show whileWaiting cid cmd = [errorFrame cid 0x01] by unfold whileWaiting; rw [if_neg h2, if_neg h3, if_neg h4]]
        simp only [sendError, consume]
        rw [sendFrame_quiet (by exact harr)]
        simp [sent, errorFrame, initBody, pad, cError, eInvalidCmd]
      · simp only [sendError, consume]
        rw [sendFrame_quiet (by exact harr)]
        simp [dispatched]
  obtain ⟨s', e1, e2, e3⟩ := key
  refine ⟨s', _, by rw [encode, hz, conts_nil], ?_, by rw [e2, hlog], by rw [e3, hlog]⟩
  rw [ho, loopWait, e, ok_bind]
  simpa using e1

/-- A packet of another channel is refused and disturbs nothing. -/
theorem C78_other_channel (s : St) (cid : UInt32) (h : Waiting s cid) (f : Frame) (hf : f.cid ≠ cid) (tick : Nat)
    (ht : tick < 2 ^ 32) :
    ∃ s', loopWait (outEvent s f) tick = .ok (s', false) ∧ Waiting s' cid ∧ s'.ch = s.ch ∧
      s'.log = .sent (refusal f) :: s.log := by
  have ho : outEvent s f = { s with frame := f, has := true } := by
    unfold outEvent
    rw [h.has]
    rfl
  have fin : ∀ code, ∃ s', consume (sendError { s with frame := f, has := true } f.cid code) = s' ∧ Waiting s' cid ∧ s'.ch = s.ch ∧
      s'.log = .sent (errorFrame f.cid code) :: s.log := by
    intro code
    rw [sendError_quiet (by exact h.arr)]
    exact ⟨_, rfl, ⟨rfl, h.busy, h.cid, h.expire, h.len, h.arr⟩, rfl, rfl⟩
  rw [ho]
  unfold loopWait front
  rw [expired_not (by simp only [h.expire]; omega)]
  simp only [Bool.not_true, Bool.false_eq_true, if_false]
  split
  · next hz =>
    obtain ⟨s', e, h1, h2, h3⟩ := fin eInvalidCid
    simp only [Bool.or_eq_true, beq_iff_eq, Bool.and_eq_true, bne_iff_ne] at hz
    refine ⟨s', by rw [e]; rfl, h1, h2, ?_⟩
    rw [h3, refusal, if_pos (by exact hz)]; rfl
  · next hz =>
    simp only [Bool.or_eq_true, beq_iff_eq, Bool.and_eq_true, bne_iff_ne] at hz
    rw [if_pos (by simp [h.busy, h.cid, hf])]
    obtain ⟨s', e, h1, h2, h3⟩ := fin eBusy
    refine ⟨s', by rw [e]; rfl, h1, h2, ?_⟩
    rw [h3, refusal, if_neg (by exact hz)]; rfl

/-! ### Any packets, at any time -/

/-- The messages executed are the same. -/
def Same (s s' : St) : Prop := dispatched s'.log = dispatched s.log

theorem same_outEvent (s : St) (f : Frame) : Same s (outEvent s f) := by
  unfold outEvent Same; split <;> rfl

theorem same_arrive (s : St) : Same s (arrive s) := by
  unfold arrive
  split
  · rfl
  · rfl
  · exact same_outEvent _ _

theorem same_sendFrame (s : St) : Same s (sendFrame s) := by
  unfold sendFrame
  refine (same_arrive _).trans ?_
  exact Eq.trans (by simp [dispatched]) (same_arrive s)

theorem same_sendConts (n : Nat) : ∀ (s : St) (rest : Bytes) (q : Byte), rest.length ≤ n → Same s (sendConts s rest q) := by
  induction n with
  | zero =>
    intro s rest q h
    have : rest = [] := List.eq_nil_of_length_eq_zero (Nat.le_zero.1 h)
    subst this
    unfold sendConts
    rfl
  | succ n ih =>
    intro s rest q h
    unfold sendConts
    split
    · rfl
    · next hne =>
      have := List.length_pos_iff.2 hne
      exact (ih _ _ _ (by simp only [List.length_drop]; omega)).trans (same_sendFrame _)

theorem same_sendError (s : St) (c : UInt32) (e : Byte) : Same s (sendError s c e) := same_sendFrame _

theorem same_sendResponse {s s' : St} {c : UInt32} {cmd : Byte} {n : Nat} (h : sendResponse s c cmd n = .ok s') : Same s s' := by
  unfold sendResponse at h
  cases hr : rdRange s.ch.data 0 n with
  | error e => rw [hr] at h; cases h
  | ok d =>
    rw [hr] at h
    cases h
    exact (same_sendConts _ _ _ _ (Nat.le_refl _)).trans (same_sendFrame _)

theorem same_expired (s : St) (t : Nat) : Same s (expired s t) := by
  unfold expired
  split
  · exact same_sendError _ _ _
  · rfl

theorem same_takeInit {s s' : St} {w g : Bool} {t : Nat} (h : takeInit s w t = .ok (s', g)) : Same s s' := by
  unfold takeInit at h
  split at h
  · cases h; exact same_sendError _ _ _
  · simp only at h
    split at h
    · cases h; exact same_sendError _ _ _
    · cases hr : wrRange s.ch.data 0 (s.frame.initData.take (min s.frame.len 57)) with
      | error e => simp only [hr] at h; cases h
      | ok d => simp only [hr] at h; cases h; rfl

theorem same_takeCont {s s' : St} {g : Bool} (h : takeCont s = .ok (s', g)) : Same s s' := by
  unfold takeCont at h
  split at h
  · cases h; rfl
  · simp only at h
    split at h
    · cases h; exact same_sendError _ _ _
    · cases hr : wrRange s.ch.data s.ch.cur (s.frame.contData.take (min (s.ch.total - s.ch.cur) 59)) with
      | error e => simp only [hr] at h; cases h
      | ok d => simp only [hr] at h; cases h; rfl

theorem same_front {s s' : St} {w g : Bool} {t : Nat} (h : front s w t = .ok (s', g)) : Same s s' := by
  have h0 := same_expired s t
  unfold front at h
  simp only at h
  generalize expired s t = s0 at h h0
  refine Eq.trans ?_ h0
  split at h
  · cases h; rfl
  split at h
  · cases h; exact same_sendError _ _ _
  split at h
  · cases h; exact same_sendError _ _ _
  have key : ∀ {m : C (St × Bool)}, (∀ s1 g1, m = .ok (s1, g1) → Same s0 s1) →
      (m >>= fun p => if (p.2 && (consume p.1).ch.cur == (consume p.1).ch.total) = true then
        pure ({ consume p.1 with ch := { (consume p.1).ch with expire := 2 ^ 32 - 1 } }, true)
        else pure (consume p.1, false)) = .ok (s', g) → Same s0 s' := by
    intro m hm e
    cases m with
    | error e1 => cases e
    | ok p =>
      have := hm p.1 p.2 rfl
      simp only [ok_bind] at e
      split at e <;> cases e <;> exact this
  split at h
  · refine key ?_ h
    intro s1 g1 e
    exact (same_takeInit e).trans rfl
  · refine key ?_ h
    intro s1 g1 e
    exact (same_takeCont e).trans rfl

theorem finishWait_cancel {s s' : St} {c : Bool} (h : finishWait s = .ok (s', c)) :
    Same s s' ∧ (c = true → s.ch.cmd = 0x91 ∧ s'.log = .nested s.ch.cid 0x91 (message s) :: s.log) := by
  unfold finishWait at h
  have h0 : Same s { s with log := .nested s.ch.cid s.ch.cmd (message s) :: s.log } := by simp [Same, dispatched]
  simp only at h
  split at h
  · simp only [pure_eq_ok, ok_bind] at h
    cases h
    exact ⟨(same_sendError _ _ _).trans h0, fun e => nomatch e⟩
  split at h
  · cases hr : sendResponse { s with log := .nested s.ch.cid s.ch.cmd (message s) :: s.log } s.ch.cid s.ch.cmd 0 with
    | error e => rw [hr] at h; cases h
    | ok s1 =>
      rw [hr] at h
      cases h
      exact ⟨(same_sendResponse hr).trans h0, fun e => nomatch e⟩
  split at h
  · next hc =>
    have hc : s.ch.cmd = 0x91 := by simpa [cCancel] using hc
    cases h
    exact ⟨h0, fun _ => ⟨hc, by simp [consume, hc]⟩⟩
  · simp only [pure_eq_ok, ok_bind] at h
    cases h
    exact ⟨(same_sendError _ _ _).trans h0, fun e => nomatch e⟩

theorem same_loopWait {s s' : St} {t : Nat} {c : Bool} (h : loopWait s t = .ok (s', c)) : Same s s' := by
  unfold loopWait at h
  cases hr : front s true t with
  | error e => rw [hr] at h; cases h
  | ok p =>
    rw [hr] at h
    simp only [ok_bind] at h
    have := same_front hr
    split at h
    · exact (finishWait_cancel h).1.trans this
    · cases h; exact this

/-- Whatever arrives while a command waits, no further command is executed. -/
theorem C78_nothing_executed (nev : List Nev) : ∀ (s s' : St), nested s nev = .ok s' → dispatched s'.log = dispatched s.log := by
  induction nev with
  | nil => intro s s' h; cases h; rfl
  | cons e l ih =>
    intro s s' h
    cases e with
    | recv f => exact (ih _ _ h).trans (same_outEvent s f)
    | alive b => exact (ih _ _ h).trans (same_sendFrame _)
    | loop t =>
      unfold nested at h
      cases hr : loopWait s t with
      | error e => rw [hr] at h; cases h
      | ok p =>
        rw [hr] at h
        simp only [ok_bind] at h
        split at h
        · cases h; exact same_loopWait hr
        · exact (ih _ _ h).trans (same_loopWait hr)

/-- Only a CANCEL message stops the waiting command: it is the last thing recorded, and nothing is sent for it. -/
theorem C78_only_cancel (s s' : St) (t : Nat) (h : loopWait s t = .ok (s', true)) :
    ∃ cid m old, s'.log = .nested cid 0x91 m :: old := by
  unfold loopWait at h
  cases hr : front s true t with
  | error e => rw [hr] at h; cases h
  | ok p =>
    rw [hr] at h
    simp only [ok_bind] at h
    split at h
    · exact ⟨_, _, _, ((finishWait_cancel h).2 rfl).2⟩
    · cases h

/-! ### The hypotheses can be met -/

/-- A CBOR command of channel 7 that waits for the user. -/
def waits : St := { St.init with ch := { St.init.ch with cid := 7, busy := true, cmd := cCbor, total := 1, cur := 1, expire := 2 ^ 32 - 1 } }

example : Waiting waits 7 := ⟨rfl, rfl, rfl, rfl, by decide +kernel, rfl⟩
/-- That state is the one the receiver is in when it hands the message over. -/
example : (front (outEvent St.init ⟨7, [0x90, 0, 1, 4] ++ List.replicate 56 0⟩) false 5).toOption.map
    (fun p => (p.2, p.1.ch.busy, p.1.ch.cid.toNat, p.1.ch.expire, p.1.has, p.1.arr.length)) = some (true, true, 7, 2 ^ 32 - 1, false, 0) := by
  decide +kernel
example : (nested waits [.recv ⟨7, [0x91, 0, 0] ++ List.replicate 57 0⟩, .loop 9]).toOption.map
    (fun s => s.log) = some [.nested 7 0x91 []] := by decide +kernel
example : (nested waits [.recv ⟨8, [0x91, 0, 0] ++ List.replicate 57 0⟩, .loop 9]).toOption.map
    (fun s => sent s.log) = some [errorFrame 8 6] := by decide +kernel

end Verif.Hid
