import Verif.Props.Hid
/-
C44: the message buffer; C43, C45: counterexamples.
-/
namespace Verif.Hid
open Verif.Spec.Hid

/-- A frame of 64 bytes that does not start a message larger than the buffer. -/
def Tame (f : Frame) : Prop := f.body.length = 60 ∧ (f.isInit = true → f.len ≤ 1300)

/-- A frame of 64 bytes that is not an INIT command with a length larger than the buffer. -/
def Mild (f : Frame) : Prop := f.body.length = 60 ∧ (f.cmd = cInit → f.len ≤ 1300)

theorem Tame.mild {f : Frame} (h : Tame f) : Mild f :=
  ⟨h.1, fun e => h.2 (by rw [Frame.isInit, e]; decide)⟩

/-- The buffer is intact, a pending message fits. -/
structure Inv0 (s : St) : Prop where
  len : s.ch.data.length = 1300
  busy : s.ch.busy = true → s.ch.total ≤ 1300 ∧ s.ch.cur ≤ s.ch.total
  arr : ∀ f, some f ∈ s.arr → Tame f

/-- The same, and a received frame satisfies `P`. -/
structure Inv (P : Frame → Prop) (s : St) : Prop extends Inv0 s where
  frame : s.has = true → P s.frame

variable {P : Frame → Prop}

theorem outEvent_inv {s : St} {f : Frame} (h : Inv P s) (hf : P f) : Inv P (outEvent s f) := by
  unfold outEvent
  split
  · exact h
  · exact ⟨⟨h.len, h.busy, h.arr⟩, fun _ => hf⟩

theorem outEvent_inv0 {s : St} {f : Frame} (h : Inv0 s) : Inv0 (outEvent s f) := by
  unfold outEvent
  split
  · exact h
  · exact ⟨h.len, h.busy, h.arr⟩

theorem arrive_inv {s : St} (hP : ∀ f, Tame f → P f) (h : Inv P s) : Inv P (arrive s) := by
  unfold arrive
  split
  · exact h
  · next a e => exact ⟨⟨h.len, h.busy, fun f hf => h.arr f (by rw [e]; exact List.mem_cons_of_mem _ hf)⟩, h.frame⟩
  · next g a e =>
    refine outEvent_inv ?_ (hP g (h.arr g (by rw [e]; exact List.mem_cons_self)))
    exact ⟨⟨h.len, h.busy, fun f hf => h.arr f (by rw [e]; exact List.mem_cons_of_mem _ hf)⟩, h.frame⟩

theorem arrive_inv0 {s : St} (h : Inv0 s) : Inv0 (arrive s) ∧ (arrive s).ch = s.ch := by
  unfold arrive
  split
  · exact ⟨h, rfl⟩
  · next a e => exact ⟨⟨h.len, h.busy, fun f hf => h.arr f (by rw [e]; exact List.mem_cons_of_mem _ hf)⟩, rfl⟩
  · next g a e =>
    refine ⟨outEvent_inv0 ⟨h.len, h.busy, fun f hf => h.arr f (by rw [e]; exact List.mem_cons_of_mem _ hf)⟩, ?_⟩
    unfold outEvent
    split <;> rfl

theorem sendFrame_inv0 {s : St} (h : Inv0 s) : Inv0 (sendFrame s) ∧ (sendFrame s).ch = s.ch := by
  unfold sendFrame
  have h1 := arrive_inv0 h
  have h2 := arrive_inv0 (s := { arrive s with log := .sent (arrive s).frame :: (arrive s).log })
    ⟨h1.1.len, h1.1.busy, h1.1.arr⟩
  exact ⟨h2.1, h2.2.trans h1.2⟩

theorem sendFrame_inv {s : St} (hP : ∀ f, Tame f → P f) (h : Inv P s) : Inv P (sendFrame s) ∧ (sendFrame s).ch = s.ch := by
  refine ⟨?_, (sendFrame_inv0 h.toInv0).2⟩
  unfold sendFrame
  have h1 := arrive_inv hP h
  exact arrive_inv hP ⟨⟨h1.len, h1.busy, h1.arr⟩, h1.frame⟩

theorem error_tame (cid : UInt32) (c code : Byte) : Tame ⟨cid, initBody c 1 [code]⟩ := by
  refine ⟨by simp [initBody], fun _ => ?_⟩
  simp [Frame.len, initBody, be16]

theorem sendError_inv {s : St} (hP : ∀ f, Tame f → P f) (h : Inv0 s) (cid : UInt32) (code : Byte) :
    Inv P (sendError s cid code) ∧ (sendError s cid code).ch = s.ch :=
  sendFrame_inv hP ⟨⟨h.len, h.busy, h.arr⟩, fun _ => hP _ (error_tame cid _ code)⟩

theorem keepAlive_inv {s : St} (hP : ∀ f, Tame f → P f) (h : Inv0 s) (b : Byte) :
    Inv P (keepAlive s b) ∧ (keepAlive s b).ch = s.ch :=
  sendFrame_inv hP ⟨⟨h.len, h.busy, h.arr⟩, fun _ => hP _ (error_tame _ _ b)⟩

theorem sendConts_inv0 : ∀ (n : Nat) (s : St) (rest : Bytes) (q : Byte), rest.length ≤ n → Inv0 s →
    Inv0 (sendConts s rest q) ∧ (sendConts s rest q).ch = s.ch
  | n, s, rest, q, hn, h => by
    rw [sendConts]
    split
    · exact ⟨h, rfl⟩
    · next hr =>
      have := List.length_pos_iff.2 hr
      cases n with
      | zero => omega
      | succ n =>
        have h1 := sendFrame_inv0 (s := { s with frame := ⟨s.frame.cid, contBody q (rest.take 59)⟩ })
          ⟨h.len, h.busy, h.arr⟩
        have h2 := sendConts_inv0 n _ (rest.drop 59) (q + 1) (by simp; omega) h1.1
        exact ⟨h2.1, h2.2.trans h1.2⟩

theorem sendResponse_inv0 {s : St} (h : Inv0 s) (cid : UInt32) (cmd : Byte) {len : Nat} (hl : len ≤ 1300) :
    ∃ s', sendResponse s cid cmd len = .ok s' ∧ Inv0 s' ∧ s'.ch = s.ch := by
  unfold sendResponse
  rw [rdRange_ok (by rw [h.len]; omega), ok_bind]
  have h1 := sendFrame_inv0 (s := { s with frame := ⟨cid, initBody (0x80 ||| cmd) len (((s.ch.data.drop 0).take len).take 57)⟩ })
    ⟨h.len, h.busy, h.arr⟩
  have h2 := sendConts_inv0 _ _ (((s.ch.data.drop 0).take len).drop 57) 0 (Nat.le_refl _) h1.1
  exact ⟨_, rfl, h2.1, h2.2.trans h1.2⟩

theorem consume_inv {s : St} (h : Inv0 s) : Inv P (consume s) :=
  ⟨⟨h.len, h.busy, h.arr⟩, fun e => by simp [consume] at e⟩

/-- Which frames are harmless at the top level and while waiting for the user. -/
def okFor (wait : Bool) (f : Frame) : Prop := if wait then Tame f else Mild f

theorem okFor_tame (wait : Bool) (f : Frame) (h : Tame f) : okFor wait f := by
  cases wait
  · exact h.mild
  · exact h

theorem wr_len {b d : Bytes} {off : Nat} (h : off + d.length ≤ b.length) :
    ∃ b', wrRange b off d = .ok b' ∧ b'.length = b.length := by
  obtain ⟨b', h1, h2, -⟩ := wrRange_take h
  exact ⟨b', h1, h2⟩

theorem takeInit_inv {s : St} {wait : Bool} {tick : Nat} (h : Inv0 s) (hf : okFor wait s.frame)
    (hi : s.frame.isInit = true) :
    ∃ p, takeInit s wait tick = .ok p ∧ Inv0 p.1 ∧ (p.2 = true → p.1.ch.busy = true) := by
  unfold takeInit
  split
  · next hz =>
    have := sendError_inv (P := fun _ => True) (s := { s with ch := { s.ch with busy := false } }) (fun _ _ => trivial)
      ⟨h.len, by simp, h.arr⟩ s.ch.cid eInvalidSeq
    exact ⟨_, rfl, this.1.toInv0, by simp⟩
  · next hz =>
    simp only
    split
    · next hbig =>
      have hb : s.ch.busy = false := by
        cases hbz : s.ch.busy with
        | false => rfl
        | true =>
          exfalso
          cases wait with
          | true =>
            exact absurd (hf.2 hi) (Nat.not_le.2 hbig)
          | false =>
            simp [hbz] at hz
            exact absurd (hf.2 hz) (by simpa using hbig)
      have := sendError_inv (P := fun _ => True) (s := { s with ch := { s.ch with total := s.frame.len } })
        (fun _ _ => trivial) ⟨h.len, by simp [hb], h.arr⟩ s.frame.cid eInvalidLen
      exact ⟨_, rfl, this.1.toInv0, by simp⟩
    · next hsm =>
      obtain ⟨b', h1, h2⟩ := wr_len (b := s.ch.data) (off := 0) (d := s.frame.initData.take (min s.frame.len 57)) (by
        rw [h.len]; simp only [List.length_take]; omega)
      simp only [h1, ok_bind]
      refine ⟨_, rfl, ⟨h2.trans h.len, fun _ => ?_, h.arr⟩, fun _ => rfl⟩
      exact ⟨Nat.le_of_not_lt hsm, by simp only; omega⟩

theorem takeCont_inv {s : St} (h : Inv0 s) :
    ∃ p, takeCont s = .ok p ∧ Inv0 p.1 ∧ (p.2 = true → p.1.ch.busy = true) := by
  unfold takeCont
  split
  · exact ⟨_, rfl, h, by simp⟩
  · next hb =>
    have hb : s.ch.busy = true := by simpa using hb
    simp only
    split
    · have := sendError_inv (P := fun _ => True) (s := { s with ch := { s.ch with seq := s.ch.seq + 1, busy := false } })
        (fun _ _ => trivial) ⟨h.len, by simp, h.arr⟩ s.ch.cid eInvalidSeq
      exact ⟨_, rfl, this.1.toInv0, by simp⟩
    · have hk := h.busy hb
      obtain ⟨b', h1, h2⟩ := wr_len (b := s.ch.data) (off := s.ch.cur)
        (d := s.frame.contData.take (min (s.ch.total - s.ch.cur) 59)) (by
          rw [h.len]; simp only [List.length_take]; omega)
      simp only [h1, ok_bind]
      exact ⟨_, rfl, ⟨h2.trans h.len, fun _ => ⟨hk.1, by have := hk.2; show s.ch.cur + _ ≤ s.ch.total; omega⟩, h.arr⟩, fun _ => hb⟩

theorem expired_inv {s : St} (hP : ∀ f, Tame f → P f) (h : Inv P s) (tick : Nat) : Inv P (expired s tick) := by
  unfold expired
  split
  · exact (sendError_inv hP (s := { s with ch := { s.ch with busy := false } }) ⟨h.len, by simp, h.arr⟩ _ _).1
  · exact h

theorem front_inv {s : St} {wait : Bool} {tick : Nat} (h : Inv (okFor wait) s) :
    ∃ p, front s wait tick = .ok p ∧ Inv (okFor wait) p.1 ∧ (p.2 = true → p.1.ch.busy = true ∧ p.1.has = false) := by
  unfold front
  have hx := expired_inv (okFor_tame wait) h tick
  generalize expired s tick = t at hx
  simp only
  split
  · exact ⟨_, rfl, hx, by simp⟩
  next hh =>
  have hh : t.has = true := by simpa using hh
  split
  · exact ⟨_, rfl, consume_inv (sendError_inv (okFor_tame wait) hx.toInv0 _ _).1.toInv0, by simp⟩
  split
  · exact ⟨_, rfl, consume_inv (sendError_inv (okFor_tame wait) hx.toInv0 _ _).1.toInv0, by simp⟩
  have hy : Inv0 { t with ch := { t.ch with cid := t.frame.cid } } := ⟨hx.len, hx.busy, hx.arr⟩
  have fin : ∀ {x : C (St × Bool)}, (∃ p, x = .ok p ∧ Inv0 p.1 ∧ (p.2 = true → p.1.ch.busy = true)) →
      ∃ p, (do
        let (s, go) ← x
        let s := consume s
        if go && s.ch.cur == s.ch.total then
          return ({ s with ch := { s.ch with expire := 2 ^ 32 - 1 } }, true)
        return (s, false)) = .ok p ∧ Inv (okFor wait) p.1 ∧ (p.2 = true → p.1.ch.busy = true ∧ p.1.has = false) := by
    rintro x ⟨⟨u, go⟩, rfl, hu, hgo⟩
    rw [ok_bind]
    simp only
    split
    · next hc =>
      simp only [Bool.and_eq_true] at hc
      exact ⟨_, rfl, ⟨⟨hu.len, hu.busy, hu.arr⟩, by simp [consume]⟩, fun _ => ⟨hgo hc.1, rfl⟩⟩
    · exact ⟨_, rfl, consume_inv hu, by simp⟩
  split
  · next hi => exact fin (takeInit_inv hy (hx.frame hh) hi)
  · exact fin (takeCont_inv hy)

theorem loopWait_inv {s : St} {tick : Nat} (h : Inv Tame s) :
    ∃ p, loopWait s tick = .ok p ∧ Inv Tame p.1 := by
  unfold loopWait
  obtain ⟨⟨t, go⟩, e, ht, hgo⟩ := front_inv (wait := true) (tick := tick) h
  rw [e, ok_bind]
  simp only
  split
  · unfold finishWait
    have hw : ∀ {u : St}, Inv0 u → Inv Tame (consume { u with ch := { u.ch with busy := false } }) := fun hu =>
      consume_inv ⟨hu.len, by simp, hu.arr⟩
    have ht' : Inv0 { t with log := .nested t.ch.cid t.ch.cmd (message t) :: t.log } := ⟨ht.len, ht.busy, ht.arr⟩
    simp only
    split
    · exact ⟨_, rfl, hw (sendError_inv (P := Tame) (fun _ h => h) ht' _ _).1.toInv0⟩
    split
    · obtain ⟨u, hu, hi, -⟩ := sendResponse_inv0 ht' t.ch.cid t.ch.cmd (len := 0) (by omega)
      simp only [hu, ok_bind]
      exact ⟨_, rfl, hw hi⟩
    split
    · exact ⟨_, rfl, hw ht'⟩
    · exact ⟨_, rfl, hw (sendError_inv (P := Tame) (fun _ h => h) ht' _ _).1.toInv0⟩
  · exact ⟨_, rfl, ht⟩

/-- Frames received while waiting. -/
def Nev.tame : Nev → Prop
  | .recv f => Tame f
  | _ => True

theorem nested_inv : ∀ (l : List Nev) {s : St}, Inv Tame s → (∀ n ∈ l, n.tame) → ∃ t, nested s l = .ok t ∧ Inv Tame t
  | [], s, h, _ => ⟨s, rfl, h⟩
  | .recv f :: l, s, h, hl => by
    rw [nested]
    exact nested_inv l (outEvent_inv h (hl _ List.mem_cons_self)) fun n hn => hl n (List.mem_cons_of_mem _ hn)
  | .alive b :: l, s, h, hl => by
    rw [nested]
    exact nested_inv l (keepAlive_inv (P := Tame) (fun _ h => h) h.toInv0 b).1 fun n hn => hl n (List.mem_cons_of_mem _ hn)
  | .loop t :: l, s, h, hl => by
    rw [nested]
    obtain ⟨⟨u, c⟩, e, hu⟩ := loopWait_inv (tick := t) h
    rw [e, ok_bind]
    simp only
    split
    · exact ⟨u, rfl, hu⟩
    · exact nested_inv l hu fun n hn => hl n (List.mem_cons_of_mem _ hn)

theorem nested_bind {s : St} {l : List Nev} {k : St → C St} {Q : St → Prop} (h : Inv Tame s) (hl : ∀ n ∈ l, n.tame)
    (hk : ∀ t, Inv Tame t → ∃ r, k t = .ok r ∧ Q r) : ∃ r, (nested s l >>= k) = .ok r ∧ Q r := by
  obtain ⟨t, e, ht⟩ := nested_inv l h hl
  rw [e, ok_bind]
  exact hk t ht

theorem execMsg_inv {s : St} {e : Env} {nev : List Nev} (h : Inv0 s) (hh : s.has = false)
    (hn : ∀ n ∈ nev, n.tame) (hr : e.resp.length ≤ 1298) : ∃ t, execMsg s e nev = .ok t ∧ Inv0 t := by
  unfold execMsg
  rw [rdRange_ok (by simp [h.len]), ok_bind, rd_ok (by simp [h.len]), ok_bind, rd_ok (by simp [h.len]), ok_bind]
  refine nested_bind ⟨⟨h.len, h.busy, h.arr⟩, by simp [hh]⟩ hn fun t hi => ?_
  obtain ⟨d, hd, hl⟩ := wr_len (b := t.ch.data) (off := 0) (d := e.resp ++ [e.sw1, e.sw2]) (by
    rw [hi.len]; simp; omega)
  obtain ⟨u, hu, hiu, -⟩ := sendResponse_inv0 (s := { t with ch := { t.ch with data := d } })
    ⟨hl.trans hi.len, hi.busy, hi.arr⟩ t.ch.cid t.ch.cmd (len := e.resp.length + 2) (by omega)
  simp only [ok_bind, hd, hu]
  exact ⟨_, rfl, hiu⟩

theorem finish_inv {s : St} {e : Env} {nev : List Nev} (h : Inv0 s) (hb : s.ch.busy = true) (hh : s.has = false)
    (hn : ∀ n ∈ nev, n.tame) (hr : e.resp.length ≤ 1298) : ∃ t, finish s e nev = .ok t ∧ Inv Mild t := by
  unfold finish
  have hw : ∀ {u : St}, Inv0 u → Inv Mild (consume { u with ch := { u.ch with busy := false } }) := fun hu =>
    consume_inv ⟨hu.len, by simp, hu.arr⟩
  have hs : Inv0 { s with log := .msg s.ch.cid s.ch.cmd (message s) :: s.log } := ⟨h.len, h.busy, h.arr⟩
  have he : ∀ code, Inv0 (sendError { s with log := .msg s.ch.cid s.ch.cmd (message s) :: s.log } s.ch.cid code) :=
    fun code => (sendError_inv (P := Tame) (fun _ h => h) hs _ _).1.toInv0
  simp only
  split
  · split
    · exact ⟨_, rfl, hw (he _)⟩
    · obtain ⟨u, hu, hiu⟩ := execMsg_inv (e := e) (nev := nev) hs hh hn hr
      simp only [ok_bind, hu]
      exact ⟨_, rfl, hw hiu⟩
  split
  · split
    · exact ⟨_, rfl, hw (he _)⟩
    · unfold execCbor
      obtain ⟨t, ht, hi⟩ := nested_inv nev (s := { s with log := .msg s.ch.cid s.ch.cmd (message s) :: s.log })
        ⟨hs, by simp [hh]⟩ hn
      obtain ⟨d, hd, hl⟩ := wr_len (b := t.ch.data) (off := 0) (d := e.resp) (by rw [hi.len]; omega)
      obtain ⟨u, hu, hiu, -⟩ := sendResponse_inv0 (s := { t with ch := { t.ch with data := d } })
        ⟨hl.trans hi.len, hi.busy, hi.arr⟩ t.ch.cid cCbor (len := e.resp.length) (by omega)
      simp only [ht, ok_bind, hd, hu]
      exact ⟨_, rfl, hw hiu⟩
  split
  · unfold execInit
    simp only
    obtain ⟨d, hd, hl⟩ := wr_len (b := s.ch.data) (off := 8) (d := 
      (let c := if s.ch.cid == broadcast then e.rnd else s.ch.cid
       [c.toUInt8, (c >>> 8).toUInt8, (c >>> 16).toUInt8, (c >>> 24).toUInt8] ++ [2, 1, 0, 0, 4])) (by rw [h.len]; simp)
    simp only at hd
    obtain ⟨u, hu, hiu, -⟩ := sendResponse_inv0 (s := { s with log := .msg s.ch.cid s.ch.cmd (message s) :: s.log, ch := { s.ch with data := d } })
        ⟨hl.trans h.len, h.busy, h.arr⟩ s.ch.cid s.ch.cmd (len := 17) (by omega)
    simp only [hd, ok_bind, hu]
    exact ⟨_, rfl, hw hiu⟩
  split
  · obtain ⟨u, hu, hiu, -⟩ := sendResponse_inv0 hs s.ch.cid s.ch.cmd (len := s.ch.total) (h.busy hb).1
    simp only [ok_bind, hu]
    exact ⟨_, rfl, hw hiu⟩
  split
  · obtain ⟨u, hu, hiu, -⟩ := sendResponse_inv0 hs s.ch.cid s.ch.cmd (len := 0) (by omega)
    simp only [ok_bind, hu]
    exact ⟨_, rfl, hw hiu⟩
  split
  · exact ⟨_, rfl, hw hs⟩
  · exact ⟨_, rfl, hw (he _)⟩

/-- Frames that may arrive in an operation. -/
def Op.tame : Op → Prop
  | .recv f => Mild f
  | .loop e nev arr => e.resp.length ≤ 1298 ∧ (∀ n ∈ nev, n.tame) ∧ ∀ f, some f ∈ arr → Tame f

theorem step_inv {s : St} {op : Op} (h : Inv Mild s) (ho : op.tame) : ∃ t, step s op = .ok t ∧ Inv Mild t := by
  cases op with
  | recv f => exact ⟨_, rfl, outEvent_inv h ho⟩
  | loop e nev arr =>
    unfold step loop
    obtain ⟨hr, hn, ha⟩ := ho
    obtain ⟨⟨t, go⟩, e1, ht, hgo⟩ := front_inv (wait := false) (tick := e.tick) (s := { s with arr := arr })
      ⟨⟨h.len, h.busy, ha⟩, h.frame⟩
    simp only [e1, ok_bind]
    split
    · next hg => exact finish_inv ht.toInv0 (hgo hg).1 (hgo hg).2 hn hr
    · exact ⟨_, rfl, ht⟩

theorem run_inv : ∀ (h : List Op) {s : St}, Inv Mild s → (∀ op ∈ h, op.tame) → ∃ t, run s h = .ok t ∧ Inv Mild t
  | [], s, hs, _ => ⟨s, rfl, hs⟩
  | op :: h, s, hs, ho => by
    obtain ⟨t, e, ht⟩ := step_inv hs (ho op List.mem_cons_self)
    rw [run, e, ok_bind]
    exact run_inv h ht fun o hm => ho o (List.mem_cons_of_mem _ hm)

theorem init_inv : Inv Mild St.init :=
  ⟨⟨List.length_replicate, (fun h => nomatch h), (fun _ h => nomatch h)⟩, (fun h => nomatch h)⟩

/-- **C44** (partial: a host that sends an INIT command with a length above 1300 while a message is pending breaks it,
see `C44_refuted`). Whatever frames arrive, at whatever times, before, during and after the processing of messages and
the transmission of responses, no byte outside the message buffer is read or written, provided no frame is an INIT
command announcing more than 1300 bytes and no frame that arrives while the device is processing or sending announces
more than 1300 bytes. -/
theorem C44_buffer_safe_partial (h : List Op) (ho : ∀ op ∈ h, op.tame) : ∃ s, run St.init h = .ok s := by
  obtain ⟨t, e, -⟩ := run_inv h init_inv ho
  exact ⟨t, e⟩

end Verif.Hid
