import Verif.Lemmas.Ccid
/-
C46: messages over CCID.
-/
namespace Verif.Ccid
open Verif.Spec.Ccid

theorem respHdr_resp (s : St) (m : Msg) (mt err sp : Byte) (d : Bytes) (h1 : s.slot = m.slot) (h2 : s.seq = m.seq) :
    respHdr s mt d.length err sp ++ d = resp m mt s.status err sp d := by
  simp [respHdr, resp, le4, h1, h2]

theorem check_problem {s : St} {m : Msg} (h : Got s m k) (two : Bool) :
    check s true two (!two) = match problem m two with
      | some e => (s.fail, e)
      | none => (s.good, 0) := by
  have hz : ∀ b : Byte, (b ≥ 1) = (b ≠ 0) := by
    have : ∀ b : Byte, (b ≥ 1) ↔ (b ≠ 0) := by decide +kernel
    exact fun b => propext (this b)
  have hd : (m.data.length != 0) = decide (m.data ≠ []) := by
    cases m.data <;> simp
  unfold check problem
  simp only [h.hdr, hdrOf, hz]
  by_cases c1 : m.slot = 0
  · by_cases c2 : m.data = []
    · cases two
      · by_cases c3 : m.p0 = 0 <;> by_cases c4 : m.p1 = 0 <;> by_cases c5 : m.p2 = 0 <;> simp [c1, c2, c3, c4, c5]
      · by_cases c4 : m.p1 = 0 <;> by_cases c5 : m.p2 = 0 <;> simp [c1, c2, c4, c5]
    · have : m.data.length ≠ 0 := by simpa using c2
      simp [c1, c2, this]
  · simp [c1]

/-- The errors are not zero. -/
theorem problem_ne_zero {m : Msg} {two : Bool} {e : Byte} (h : problem m two = some e) : e ≠ 0 := by
  unfold problem at h
  repeat' split at h
  all_goals first | (cases h; decide) | cases h

/-- A command has sent `r`. -/
structure Sent (s t : St) (l : List Ev) : Prop where
  st : t.st = s.st
  short : t.short = s.short
  buf : t.buf = s.buf
  log : t.log = l ++ s.log

theorem sendShort_sent {s t : St} {m : Msg} {mt err sp : Byte} {d : Bytes} {l : List Ev} (h : Sent s t l)
    (h1 : t.slot = m.slot) (h2 : t.seq = m.seq) :
    Sent s (sendShort t mt err sp d) (.sent (resp m mt t.status err sp d) :: l) := by
  refine ⟨h.st, h.short, h.buf, ?_⟩
  show Ev.sent _ :: t.log = _
  rw [respHdr_resp t m mt err sp d h1 h2, h.log]
  rfl

theorem Sent.refl (s : St) : Sent s s [] := ⟨rfl, rfl, rfl, rfl⟩
theorem fail_sent (s : St) : Sent s s.fail [] := ⟨rfl, rfl, rfl, rfl⟩
theorem good_sent (s : St) : Sent s s.good [] := ⟨rfl, rfl, rfl, rfl⟩

theorem powerOn_sent {s : St} {m : Msg} {k : Nat} (h : Got s m k) (hm : m.mt = 0x62) :
    Sent s (powerOn s) (.sent (reply s.status m) :: (if resets m then [.poweroff] else [])) := by
  have hres : resets m ↔ problem m true = none ∧ m.p0 = 0 := by
    unfold resets
    rw [hm]
    simp
  have hrep : reply s.status m = match problem m true with
    | some e => resp m 0x80 (0x40 ||| (s.status &&& 3)) e 0 []
    | none => if m.p0 ≠ 0 then resp m 0x80 (0x40 ||| (s.status &&& 3)) 7 0 [] else resp m 0x80 0 0x81 0 theAtr := by
    unfold reply
    rw [hm]
    rfl
  have hc := check_problem h true
  simp only [Bool.not_true] at hc
  have hp : s.hdr.p0 = m.p0 := by rw [h.hdr]; rfl
  unfold powerOn
  rw [hc, hrep]
  cases hx : problem m true with
  | some e =>
    have := problem_ne_zero hx
    have hn : ¬ resets m := by rw [hres, hx]; simp
    rw [if_neg hn]
    simp only [bne_iff_ne, ne_eq, this, not_false_eq_true, if_true]
    exact sendShort_sent (fail_sent s) h.slot h.seq
  | none =>
    simp only [bne_self_eq_false, Bool.false_eq_true, if_false]
    have e1 : s.good.hdr.p0 = m.p0 := hp
    by_cases h0 : m.p0 = 0
    · rw [if_pos (hres.2 ⟨hx, h0⟩)]
      simp only [e1, h0, bne_self_eq_false, Bool.false_eq_true, if_false, ne_eq, not_true_eq_false]
      exact sendShort_sent (s := s) (t := { s.good with status := 0, log := .poweroff :: s.log })
        ⟨rfl, rfl, rfl, rfl⟩ h.slot h.seq
    · rw [if_neg (fun hr => h0 (hres.1 hr).2)]
      simp only [e1, bne_iff_ne, ne_eq, h0, not_false_eq_true, if_true]
      have := sendShort_sent (m := m) (mt := 0x80) (err := 7) (sp := 0) (d := []) (l := []) (s := s) (t := s.good.fail) ⟨rfl, rfl, rfl, rfl⟩ h.slot h.seq
      have e2 : s.good.fail.status = 0x40 ||| (s.status &&& 3) := by
        show 0x40 ||| ((s.status &&& 3) &&& 3) = _
        have : ∀ b : Byte, 0x40 ||| ((b &&& 3) &&& 3) = 0x40 ||| (b &&& 3) := by decide +kernel
        exact this _
      rw [e2] at this
      exact this

theorem powerOff_sent {s : St} {m : Msg} {k : Nat} (h : Got s m k) (hm : m.mt = 0x63) :
    Sent s (powerOff s) (.sent (reply s.status m) :: (if resets m then [.poweroff] else [])) := by
  have hres : resets m ↔ problem m false = none := by
    unfold resets
    rw [hm]
    simp
  have hrep : reply s.status m = match problem m false with
    | some e => resp m 0x81 (0x40 ||| (s.status &&& 3)) e 0 []
    | none => resp m 0x81 1 0x81 0 [] := by
    unfold reply
    rw [hm]
    rfl
  have hc := check_problem h false
  simp only [Bool.not_false] at hc
  unfold powerOff
  rw [hc, hrep]
  cases hx : problem m false with
  | some e =>
    have := problem_ne_zero hx
    have hn : ¬ resets m := by rw [hres, hx]; simp
    rw [if_neg hn]
    simp only [bne_iff_ne, ne_eq, this, not_false_eq_true, if_true]
    exact sendShort_sent (fail_sent s) h.slot h.seq
  | none =>
    rw [if_pos (hres.2 hx)]
    simp only [bne_self_eq_false, Bool.false_eq_true, if_false]
    exact sendShort_sent (s := s) (t := { s.good with status := 1, log := .poweroff :: s.log })
      ⟨rfl, rfl, rfl, rfl⟩ h.slot h.seq

theorem resets_no {m : Msg} (h1 : m.mt ≠ 0x62) (h2 : m.mt ≠ 0x63) : ¬ resets m := by
  rintro (⟨h, -⟩ | ⟨h, -⟩)
  · exact h1 h
  · exact h2 h

theorem slotStatus_sent {s : St} {m : Msg} {k : Nat} (h : Got s m k) (hm : m.mt = 0x65) :
    Sent s (slotStatus s) [.sent (reply s.status m)] := by
  unfold slotStatus reply
  have hc := check_problem h false
  simp only [Bool.not_false] at hc
  rw [hc, hm]
  simp only [show ¬ (0x65 : Byte) = 0x62 by decide, show ¬ (0x65 : Byte) = 0x63 by decide, if_false, if_true]
  cases hx : problem m false with
  | some e =>
    have := problem_ne_zero hx
    simp only [bne_iff_ne, ne_eq, this, not_false_eq_true, if_true]
    exact sendShort_sent (fail_sent s) h.slot h.seq
  | none =>
    simp only [bne_self_eq_false, Bool.false_eq_true, if_false]
    exact sendShort_sent (good_sent s) h.slot h.seq

theorem getParams_sent {s : St} {m : Msg} {k : Nat} (h : Got s m k) (hm : m.mt = 0x6C) :
    Sent s (getParams s) [.sent (reply s.status m)] := by
  unfold getParams reply
  have hc := check_problem h false
  simp only [Bool.not_false] at hc
  rw [hc, hm]
  simp only [show ¬ (0x6C : Byte) = 0x62 by decide, show ¬ (0x6C : Byte) = 0x63 by decide,
    show ¬ (0x6C : Byte) = 0x65 by decide, if_false, if_true]
  cases hx : problem m false with
  | some e =>
    have := problem_ne_zero hx
    simp only [bne_iff_ne, ne_eq, this, not_false_eq_true, if_true]
    exact sendShort_sent (fail_sent s) h.slot h.seq
  | none =>
    simp only [bne_self_eq_false, Bool.false_eq_true, if_false]
    exact sendShort_sent (good_sent s) h.slot h.seq

/-- The reply to a command other than XfrBlock. -/
theorem reply_got {s : St} {m : Msg} {e : Env} (h : Full s m) (hx : m.mt ≠ 0x6F) (hq : quiet e) :
    ∃ t, loop s e = .ok t ∧ Ready t ∧
      t.log = .sent (reply s.status m) :: (if resets m then [.poweroff] else []) ++ s.log := by
  obtain ⟨-, -, q3⟩ := hq
  have fin : ∀ {t : St}, Sent s t (.sent (reply s.status m) :: (if resets m then [.poweroff] else [])) →
      ∃ t', (do
        let s ← (pure t : C St)
        let s ← outEvents s e.a3
        return { s with has := 0 }) = .ok t' ∧ Ready t' ∧
      t'.log = .sent (reply s.status m) :: (if resets m then [.poweroff] else []) ++ s.log := by
    intro t ht
    rw [q3]
    exact ⟨_, rfl, ⟨ht.st.trans h.st, rfl, by rw [← h.short, ← ht.short], by rw [← h.buf, ← ht.buf]⟩, ht.log⟩
  have hmt : s.hdr.mt = m.mt := by rw [h.hdr]; rfl
  have hb : ∀ c : Byte, m.mt ≠ c → (m.mt == c) = false := fun c hc => by simpa using hc
  have hbt : ∀ c : Byte, m.mt = c → (m.mt == c) = true := fun c hc => by simpa using hc
  unfold loop
  simp only [h.has, hmt, show ((1 : Nat) == 0) = false from rfl, Bool.false_eq_true, if_false]
  by_cases c1 : m.mt = mPowerOn
  · simp only [hbt _ c1, if_true]
    exact fin (powerOn_sent h.toGot c1)
  simp only [hb _ c1, Bool.false_eq_true, if_false]
  by_cases c2 : m.mt = mPowerOff
  · simp only [hbt _ c2, if_true]
    exact fin (powerOff_sent h.toGot c2)
  simp only [hb _ c2, Bool.false_eq_true, if_false]
  rw [if_neg (resets_no c1 c2)] at fin ⊢
  by_cases c3 : m.mt = mSlotStatus
  · simp only [hbt _ c3, if_true]
    exact fin (slotStatus_sent h.toGot c3)
  simp only [hb _ c3, hb mXfrBlock hx, Bool.false_eq_true, if_false]
  by_cases c4 : m.mt = mGetParams
  · simp only [hbt _ c4, if_true]
    exact fin (getParams_sent h.toGot c4)
  simp only [hb _ c4, Bool.false_eq_true, if_false]
  have n1 : ¬ m.mt = 0x62 := c1
  have n2 : ¬ m.mt = 0x63 := c2
  have n3 : ¬ m.mt = 0x65 := c3
  have n4 : ¬ m.mt = 0x6C := c4
  by_cases c5 : m.mt = mResetParams ∨ m.mt = mSetParams
  · have : (m.mt == mResetParams || m.mt == mSetParams) = true := by simpa using c5
    have hr : reply s.status m = resp m 0x82 s.status 0 1 [] := by
      unfold reply
      rw [if_neg n1, if_neg n2, if_neg n3, if_neg n4, if_pos (show m.mt = 0x6D ∨ m.mt = 0x61 from c5)]
    simp only [this, if_true]
    refine fin ?_
    rw [hr]
    exact sendShort_sent (Sent.refl s) h.slot h.seq
  have : (m.mt == mResetParams || m.mt == mSetParams) = false := by simpa [not_or] using c5
  have n5 : ¬ (m.mt = 0x6D ∨ m.mt = 0x61) := c5
  simp only [this, Bool.false_eq_true, if_false]
  by_cases c6 : m.mt = mEscape
  · have hr : reply s.status m = resp m 0x83 s.status 0 0 [] := by
      unfold reply
      rw [if_neg n1, if_neg n2, if_neg n3, if_neg n4, if_neg n5, if_pos (show m.mt = 0x6B from c6)]
    simp only [hbt _ c6, if_true]
    refine fin ?_
    rw [hr]
    exact sendShort_sent (Sent.refl s) h.slot h.seq
  have n6 : ¬ m.mt = 0x6B := c6
  simp only [hb _ c6, Bool.false_eq_true, if_false]
  by_cases c7 : m.mt = mSecure
  · have hr : reply s.status m = resp m 0x80 s.status 0 0 [] := by
      unfold reply
      rw [if_neg n1, if_neg n2, if_neg n3, if_neg n4, if_neg n5, if_neg n6, if_pos (show m.mt = 0x69 from c7)]
    simp only [hbt _ c7, if_true]
    refine fin ?_
    rw [hr]
    exact sendShort_sent (Sent.refl s) h.slot h.seq
  have n7 : ¬ m.mt = 0x69 := c7
  simp only [hb _ c7, Bool.false_eq_true, if_false]
  refine fin ?_
  have hr : reply s.status m = resp m 0x81 s.status 0 0 [] := by
    unfold reply
    rw [if_neg n1, if_neg n2, if_neg n3, if_neg n4, if_neg n5, if_neg n6, if_neg n7]
  rw [hr]
  exact sendShort_sent (Sent.refl s) h.slot h.seq

theorem sendData_ok {s : St} {d : Bytes} (err : Byte) (hl : s.inLen = d.length) (h : s.inLen < 65536)
    (hd : s.buf.take d.length = d) :
    sendData s err = .ok { s with log := .sent (respHdr s 0x80 d.length err 0 ++ d) :: s.log } := by
  have hle : d.length ≤ s.buf.length := by
    have := congrArg List.length hd
    rw [List.length_take] at this
    omega
  unfold sendData
  rw [Nat.mod_eq_of_lt h, hl, rdRange_ok (by omega), ok_bind, List.drop_zero, hd]
  rfl

/-- The reply to an XfrBlock. -/
theorem xfr_got {s : St} {m : Msg} {e : Env} (h : Full s m) (hm : m.mt = 0x6F) (hf : Fits m) (hslot : m.slot = 0)
    (hq : quiet e) (hr : e.resp.length ≤ 1340) :
    ∃ t, loop s e = .ok t ∧ Ready t ∧ t.owner = s.owner ∧
      ((WellFormed m.data ∧ t.log = .sent (resp m 0x80 0 0x81 0 (e.resp ++ [e.sw1, e.sw2])) :: .exec m.data :: s.log) ∨
       (¬ WellFormed m.data ∧ t.log = .sent (resp m 0x80 0 0x81 0 [0x67, 0x00]) :: s.log)) := by
  obtain ⟨q1, q2, q3⟩ := hq
  have hlen : m.data.length ≤ 1342 := by
    unfold Fits at hf
    split at hf <;> omega
  have hmt : s.hdr.mt = mXfrBlock := by rw [h.hdr]; exact hm
  have hl : s.hdr.len = m.data.length := by rw [h.hdr]; rfl
  have hsl : ¬ s.hdr.slot ≥ 1 := by
    have : s.hdr.slot = 0 := by rw [h.hdr]; exact hslot
    rw [this]; decide
  have hcmd : rdRange (if s.isShort = true then s.short else s.buf) 0 (m.data.length % 65536) = .ok m.data := by
    rw [Nat.mod_eq_of_lt (by omega), rdRange_ok, List.drop_zero]
    · have hd := h.data
      rw [List.take_length] at hd
      rw [isShort_eq h.hdr]
      simpa using hd
    · rw [isShort_eq h.hdr]
      by_cases h8 : m.data.length ≤ 8
      · simp [h8, h.short]
      · simp [h8, h.buf]; omega
  have hck : check s false false false = (s.good, 0) := by
    unfold check
    simp [hsl]
  unfold loop
  simp only [h.has, hmt, show ((1 : Nat) == 0) = false from rfl, show ((1 : Nat) == 2) = false from rfl, Bool.false_eq_true,
    if_false, show (mXfrBlock == mPowerOn) = false from rfl, show (mXfrBlock == mPowerOff) = false from rfl,
    show (mXfrBlock == mSlotStatus) = false from rfl, show (mXfrBlock == mXfrBlock) = true from rfl, if_true]
  unfold xfrBlock
  rw [q1]
  have e1 : s.good.hdr.len = m.data.length := hl
  simp only [outEvents, ok_bind, hck, bne_self_eq_false, Bool.false_eq_true, if_false, e1,
    show s.good.short = s.short from rfl, show s.good.buf = s.buf from rfl, hcmd]
  obtain ⟨r, hb⟩ := Apdu.C05_never_oob m.data
  rw [hb, ok_bind, q2, q3]
  have hiff : WellFormed m.data ↔ r.isSome = true := by
    constructor
    · rintro ⟨cla, ins, p1, p2, data, ne, henc⟩
      have := (Apdu.C05_decode_iff m.data ⟨cla, ins, p1, p2, data, ne⟩).2 henc
      rw [hb] at this
      cases this
      rfl
    · intro hs
      cases r with
      | none => cases hs
      | some c => exact ⟨_, _, _, _, _, _, (Apdu.C05_decode_iff m.data c).1 hb⟩
  cases r with
  | none =>
    obtain ⟨b', w1, w2, w3⟩ := wr_take (b := s.buf) (off := 0) (d := [0x67, 0x00]) (by simp [h.buf])
    simp only [w1, ok_bind]
    rw [sendData_ok (d := [0x67, 0x00]) 0x81 rfl (by show 2 < 65536; omega) (by simpa using w3)]
    refine ⟨_, rfl, ⟨h.st, rfl, h.short, w2.trans h.buf⟩, rfl, .inr ⟨by simp [hiff], ?_⟩⟩
    show Ev.sent _ :: s.log = _
    congr 2
    exact respHdr_resp _ m 0x80 0x81 0 [0x67, 0x00] h.slot h.seq
  | some c =>
    obtain ⟨b', w1, w2, w3⟩ := wr_take (b := s.buf) (off := 0) (d := e.resp ++ [e.sw1, e.sw2])
      (by simp [h.buf]; omega)
    simp only [outEvents, w1, ok_bind]
    rw [sendData_ok (d := e.resp ++ [e.sw1, e.sw2]) 0x81 (by simp) (by show e.resp.length + 2 < 65536; omega)
      (by simpa using w3)]
    refine ⟨_, rfl, ⟨h.st, rfl, h.short, w2.trans h.buf⟩, rfl, .inl ⟨by simp [hiff], ?_⟩⟩
    show Ev.sent _ :: Ev.exec _ :: s.log = _
    congr 2
    exact respHdr_resp _ m 0x80 0x81 0 (e.resp ++ [e.sw1, e.sw2]) h.slot h.seq

/-- Reception of a message. -/
theorem receive_message {s : St} (hs : Ready s) {m : Msg} (hf : Fits m) (ho : m.mt = 0x6F → s.owner = 1 ∨ s.owner = 2)
    (p : Bytes) (h : List Op) (hp : 10 ≤ p.length) (hsplit : p ++ (packets h).flatten = encode m)
    (hb : ∀ op ∈ h, between op) (hlast : h = [] ∨ ∃ q, h.getLast? = some (.packet q) ∧ q ≠ []) :
    ∃ t, run s (.packet p :: h) = .ok t ∧ Same s t ∧ Full t m := by
  obtain ⟨t, e, hsame, ht⟩ := first_got hs ho hf hp hsplit
  rw [run]
  show ∃ t', (outEvent s p >>= fun s' => run s' h) = .ok t' ∧ _
  rw [e, ok_bind]
  have hfit : m.data.length < 2 ^ 32 := by
    unfold Fits at hf
    split at hf <;> omega
  rcases hlast with rfl | hl
  · rw [if_pos (show (packets []).flatten = [] from rfl)] at ht
    exact ⟨t, rfl, hsame, ht⟩
  · have hne : (packets h).flatten ≠ [] := by
      obtain ⟨q, hl1, hl2⟩ := hl
      intro hnil
      exact hl2 (List.flatten_eq_nil_iff.1 hnil q (mem_packets (List.mem_of_getLast? hl1)))
    rw [if_neg hne] at ht
    obtain ⟨u, e2, hs2, hu⟩ := run_got h ht hf hb (by
      obtain ⟨-, h2⟩ := parseHdr_encode hfit hp hsplit
      rw [← h2, show p.length - 10 = (p.drop 10).length by simp, List.drop_left]) hl
    exact ⟨u, e2, ⟨hs2.log.trans hsame.log, hs2.status.trans hsame.status⟩, hu⟩

theorem run_snoc {s t : St} {h : List Op} {op : Op} (e : run s h = .ok t) : run s (h ++ [op]) = step t op := by
  induction h generalizing s with
  | nil =>
    cases e
    simp only [List.nil_append, run]
    cases step t op <;> rfl
  | cons o h ih =>
    simp only [List.cons_append, run] at e ⊢
    cases hq : step s o with
    | error u => rw [hq] at e; cases e
    | ok s' =>
      rw [hq, ok_bind] at e
      rw [ok_bind]
      exact ih e

/-- **C46.** A reader that waits for a command receives the packets of an XfrBlock in any packetisation that keeps the
header whole; between the packets the main loop runs and other interfaces ask for the buffer. At the next turn of the
main loop exactly one command is executed, with exactly the bytes of the message, if they are an ISO 7816-4 command (and
none otherwise), and exactly one response is sent: for the slot and sequence number of the message, with the response of
the command. Nothing is sent or executed before. -/
theorem C46_xfrblock (s : St) (hs : Ready s) (m : Msg) (hm : m.mt = 0x6F) (hslot : m.slot = 0) (hl : m.data.length ≤ 1342)
    (ho : s.owner = 1 ∨ s.owner = 2) (p : Bytes) (h : List Op) (hp : 10 ≤ p.length)
    (hsplit : p ++ (packets h).flatten = encode m) (hb : ∀ op ∈ h, between op)
    (hlast : h = [] ∨ ∃ q, h.getLast? = some (.packet q) ∧ q ≠ []) (e : Env) (hq : quiet e)
    (hr : e.resp.length ≤ 1340) :
    ∃ t u, run s (.packet p :: h) = .ok t ∧ t.log = s.log ∧ run s (.packet p :: h ++ [.loop e]) = .ok u ∧ Ready u ∧
      u.owner = ownerCcid ∧
      ((WellFormed m.data ∧ u.log = .sent (resp m 0x80 0 0x81 0 (e.resp ++ [e.sw1, e.sw2])) :: .exec m.data :: s.log) ∨
       (¬ WellFormed m.data ∧ u.log = .sent (resp m 0x80 0 0x81 0 [0x67, 0x00]) :: s.log)) := by
  have hf : Fits m := by simp [Fits, hm, hl]
  obtain ⟨t, e1, hsame, ht⟩ := receive_message hs hf (fun _ => ho) p h hp hsplit hb hlast
  obtain ⟨u, e2, hu, how, hlog⟩ := xfr_got ht hm hf hslot hq hr
  rw [hsame.log] at hlog
  exact ⟨t, u, e1, hsame.log, (run_snoc e1).trans e2, hu, how.trans (ht.own hm), hlog⟩

/-- **C46.** The same for the other commands: exactly one response, as specified, and no command is executed; a power-on
or power-off without problems resets the applets. -/
theorem C46_other_commands (s : St) (hs : Ready s) (m : Msg) (hm : m.mt ≠ 0x6F) (hl : m.data.length ≤ 8)
    (p : Bytes) (h : List Op) (hp : 10 ≤ p.length)
    (hsplit : p ++ (packets h).flatten = encode m) (hb : ∀ op ∈ h, between op)
    (hlast : h = [] ∨ ∃ q, h.getLast? = some (.packet q) ∧ q ≠ []) (e : Env) (hq : quiet e) :
    ∃ t u, run s (.packet p :: h) = .ok t ∧ t.log = s.log ∧ run s (.packet p :: h ++ [.loop e]) = .ok u ∧ Ready u ∧
      u.log = .sent (reply s.status m) :: (if resets m then [.poweroff] else []) ++ s.log := by
  have hf : Fits m := by simp [Fits, hm, hl]
  obtain ⟨t, e1, hsame, ht⟩ := receive_message hs hf (fun h => absurd h hm) p h hp hsplit hb hlast
  obtain ⟨u, e2, hu, hlog⟩ := reply_got ht hm hq
  rw [hsame.log, hsame.status] at hlog
  exact ⟨t, u, e1, hsame.log, (run_snoc e1).trans e2, hu, hlog⟩

end Verif.Ccid
