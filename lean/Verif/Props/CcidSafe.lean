import Verif.Props.Ccid
/-
C47, C70: the buffer of the CCID interface.
-/
namespace Verif.Ccid
open Verif.Spec.Ccid

/-- The length a first packet announces. -/
def announced (p : Bytes) : Nat :=
  (p.getD 1 0).toNat + 256 * (p.getD 2 0).toNat + 65536 * (p.getD 3 0).toNat + 16777216 * (p.getD 4 0).toNat

/-- A packet that, taken as the first of a message, is no XfrBlock of more than 1342 bytes. -/
def Modest (p : Bytes) : Prop := p.head? = some 0x6F → announced p ≤ 1342

/-- A message in the making fits its buffer. -/
structure Inv (s : St) : Prop where
  short : s.short.length = 8
  buf : s.buf.length = 1342
  inLen : s.inLen ≤ 1342
  xfr : s.hdr.mt = mXfrBlock → s.hdr.len ≤ 1342
  rcv : s.st = .receive → s.ab < s.hdr.len ∧ (s.hdr.mt = mXfrBlock ∨ s.hdr.len ≤ 8)

theorem parseHdr_ok {p : Bytes} (h : 10 ≤ p.length) :
    ∃ x, parseHdr p = .ok x ∧ x.len = announced p ∧ p.head? = some x.mt := by
  rcases p with _ | ⟨x0, _ | ⟨x1, _ | ⟨x2, _ | ⟨x3, _ | ⟨x4, _ | ⟨x5, _ | ⟨x6, _ | ⟨x7, _ | ⟨x8, _ | ⟨x9, q⟩⟩⟩⟩⟩⟩⟩⟩⟩⟩
  all_goals try (simp at h; done)
  refine ⟨_, rfl, ?_, rfl⟩
  simp [announced]

/-- A store within the announced length. -/
theorem store_inv {s : St} {off : Nat} {d : Bytes} (h : Inv s) (hl : off + d.length ≤ s.hdr.len)
    (hk : s.hdr.mt = mXfrBlock ∨ s.hdr.len ≤ 8) :
    ∃ t, store s off d = .ok t ∧ t.short.length = 8 ∧ t.buf.length = 1342 ∧ t.inLen = s.inLen ∧ t.hdr = s.hdr ∧
      t.st = s.st ∧ t.ab = s.ab := by
  unfold store
  by_cases h8 : s.hdr.len ≤ 8
  · obtain ⟨b', h1, h2⟩ := wr_length (b := s.short) (off := off) (d := d) (by rw [h.short]; omega)
    simp only [St.isShort, h8, decide_true, if_true, h1, ok_bind]
    exact ⟨_, rfl, h2.trans h.short, h.buf, rfl, rfl, rfl, rfl⟩
  · have := h.xfr (hk.resolve_right h8)
    obtain ⟨b', h1, h2⟩ := wr_length (b := s.buf) (off := off) (d := d) (by rw [h.buf]; omega)
    simp only [St.isShort, h8, decide_false, Bool.false_eq_true, if_false, h1, ok_bind]
    exact ⟨_, rfl, h.short, h2.trans h.buf, rfl, rfl, rfl, rfl⟩

theorem outEvent_inv {s : St} {p : Bytes} (h : Inv s) (hp : s.st = .idle → Modest p) :
    ∃ t, outEvent s p = .ok t ∧ Inv t := by
  unfold outEvent
  cases hst : s.st with
  | idle =>
    simp only
    split
    · next hlen =>
      unfold firstPacket
      obtain ⟨x, hx, hxl, hxm⟩ := parseHdr_ok hlen
      rw [hx, ok_bind]
      simp only
      have hxfr : x.mt = mXfrBlock → x.len ≤ 1342 := fun e => by
        rw [hxl]
        exact hp hst (by rw [hxm, e]; rfl)
      have fin : ∀ (o : Nat) (keep : Bool), (keep = true → x.mt = mXfrBlock ∨ x.len ≤ 8) →
          ∃ t, (do
            let s ← if keep then store { s with hdr := x, slot := x.slot, seq := x.seq, ab := min (p.length - 10) x.len, owner := o } 0 ((p.drop 10).take (min (p.length - 10) x.len)) else pure { s with hdr := x, slot := x.slot, seq := x.seq, ab := min (p.length - 10) x.len, owner := o }
            if min (p.length - 10) x.len ≥ x.len then return { s with has := if keep then 1 else 2 }
            else return { s with st := if keep then .receive else .discard }) = .ok t ∧ Inv t := by
        intro o keep hk
        have h0 : Inv { s with hdr := x, slot := x.slot, seq := x.seq, ab := min (p.length - 10) x.len, owner := o } :=
          ⟨h.short, h.buf, h.inLen, hxfr, fun e => by simp [hst] at e⟩
        cases keep with
        | true =>
          obtain ⟨t, e, t1, t2, t3, t4, t5, t6⟩ := store_inv h0 (off := 0) (d := (p.drop 10).take (min (p.length - 10) x.len))
            (by simp; omega) (hk rfl)
          simp only [if_true, e, ok_bind]
          split
          · refine ⟨_, rfl, t1, t2, by rw [t3]; exact h.inLen, by rw [t4]; exact hxfr, fun e => ?_⟩
            rw [t5] at e
            simp [hst] at e
          · next hn =>
            refine ⟨_, rfl, t1, t2, by rw [t3]; exact h.inLen, by rw [t4]; exact hxfr, fun e => ?_⟩
            simp only [t4, t6]
            exact ⟨by omega, hk rfl⟩
        | false =>
          simp only [Bool.false_eq_true, if_false, pure_eq_ok, ok_bind]
          split
          · exact ⟨_, rfl, h.short, h.buf, h.inLen, hxfr, fun e => by simp [hst] at e⟩
          · exact ⟨_, rfl, h.short, h.buf, h.inLen, hxfr, fun e => by simp at e⟩
      by_cases hm : x.mt = mXfrBlock
      · have hb : (x.mt == mXfrBlock) = true := by simpa using hm
        simp only [hb, if_true]
        exact fin _ _ (fun _ => .inl hm)
      · have hb : (x.mt == mXfrBlock) = false := by simpa using hm
        simp only [hb, Bool.false_eq_true, if_false]
        exact fin s.owner _ (fun e => .inr (by simpa [St.isShort] using e))
    · exact ⟨s, rfl, h⟩
  | receive =>
    simp only
    obtain ⟨hab, hk⟩ := h.rcv hst
    have hmax : s.hdr.len ≤ 1342 := by
      rcases hk with hk | hk
      · exact h.xfr hk
      · omega
    split
    · next hlt =>
      obtain ⟨t, e, t1, t2, t3, t4, t5, t6⟩ := store_inv h (off := s.ab) (d := p) (by omega) hk
      rw [e, ok_bind]
      refine ⟨_, rfl, t1, t2, by rw [t3]; exact h.inLen, by rw [t4]; exact h.xfr, fun _ => ?_⟩
      simp only [t4, t6]
      exact ⟨by omega, hk⟩
    · obtain ⟨t, e, t1, t2, t3, t4, t5, t6⟩ := store_inv h (off := s.ab) (d := p.take (s.hdr.len - s.ab))
        (by simp; omega) hk
      rw [e, ok_bind]
      exact ⟨_, rfl, t1, t2, by rw [t3]; exact h.inLen, by rw [t4]; exact h.xfr, fun e => by simp at e⟩
  | discard =>
    simp only
    split
    · exact ⟨_, rfl, h.short, h.buf, h.inLen, h.xfr, fun e => by simp [hst] at e⟩
    · exact ⟨_, rfl, h.short, h.buf, h.inLen, h.xfr, fun e => by simp at e⟩

theorem outEvents_inv : ∀ (l : List Bytes) {s : St}, Inv s → (∀ p ∈ l, Modest p) → ∃ t, outEvents s l = .ok t ∧ Inv t
  | [], s, h, _ => ⟨s, rfl, h⟩
  | p :: l, s, h, hl => by
    obtain ⟨t, e, ht⟩ := outEvent_inv h (fun _ => hl p List.mem_cons_self)
    rw [outEvents, e, ok_bind]
    exact outEvents_inv l ht fun q hq => hl q (List.mem_cons_of_mem _ hq)

theorem sendData_inv {s : St} (h : Inv s) (err : Byte) : ∃ t, sendData s err = .ok t ∧ Inv t := by
  unfold sendData
  have := h.inLen
  rw [rdRange_ok (by rw [h.buf, Nat.mod_eq_of_lt (by omega)]; omega), ok_bind]
  exact ⟨_, rfl, h.short, h.buf, h.inLen, h.xfr, h.rcv⟩

theorem check_inv {s : St} (h : Inv s) (a b c : Bool) : Inv (check s a b c).1 ∧ (check s a b c).1.hdr = s.hdr := by
  unfold check
  repeat' split
  all_goals exact ⟨⟨h.short, h.buf, h.inLen, h.xfr, h.rcv⟩, rfl⟩

theorem sendShort_inv {s : St} (h : Inv s) (mt err sp : Byte) (d : Bytes) : Inv (sendShort s mt err sp d) :=
  ⟨h.short, h.buf, h.inLen, h.xfr, h.rcv⟩

theorem xfrBlock_inv {s : St} {e : Env} (h : Inv s) (hm : s.hdr.mt = mXfrBlock) (h1 : e.a1 = []) (h2 : ∀ p ∈ e.a2, Modest p)
    (hr : e.resp.length ≤ 1340) : ∃ t, xfrBlock s e = .ok t ∧ Inv t := by
  unfold xfrBlock
  rw [h1]
  simp only [outEvents, ok_bind]
  have hc := check_inv h false false false
  generalize check s false false false = c at hc
  obtain ⟨s', err⟩ := c
  obtain ⟨hi, hh⟩ := hc
  simp only at hi hh ⊢
  split
  · exact sendData_inv hi _
  · have hl := h.xfr hm
    have hrd : ∃ cmd, rdRange (if s.isShort = true then s'.short else s'.buf) 0 (s'.hdr.len % 65536) = .ok cmd := by
      refine ⟨_, rdRange_ok ?_⟩
      rw [hh, Nat.mod_eq_of_lt (by omega)]
      by_cases h8 : s.hdr.len ≤ 8
      · simp [St.isShort, h8, hi.short]
      · simp [St.isShort, h8, hi.buf]; omega
    obtain ⟨cmd, ec⟩ := hrd
    rw [ec, ok_bind]
    obtain ⟨r, hb⟩ := Apdu.C05_never_oob cmd
    rw [hb, ok_bind]
    cases r with
    | none =>
      obtain ⟨b', w1, w2⟩ := wr_length (b := s'.buf) (off := 0) (d := [0x67, 0x00]) (by simp [hi.buf])
      simp only [w1, ok_bind]
      exact sendData_inv (s := { s' with buf := b', inLen := 2, status := 0 })
        ⟨hi.short, w2.trans hi.buf, by show 2 ≤ 1342; omega, hi.xfr, hi.rcv⟩ _
    | some c =>
      simp only
      obtain ⟨t, e2, ht⟩ := outEvents_inv e.a2 (s := { s' with log := .exec cmd :: s'.log })
        ⟨hi.short, hi.buf, hi.inLen, hi.xfr, hi.rcv⟩ h2
      rw [e2, ok_bind]
      obtain ⟨b', w1, w2⟩ := wr_length (b := t.buf) (off := 0) (d := e.resp ++ [e.sw1, e.sw2]) (by
        simp [ht.buf]; omega)
      simp only [w1, ok_bind]
      exact sendData_inv (s := { t with buf := b', inLen := e.resp.length + 2, status := 0 })
        ⟨ht.short, w2.trans ht.buf, by show e.resp.length + 2 ≤ 1342; omega, ht.xfr, ht.rcv⟩ _

/-- What the environment may do in one operation: see `C47_buffer_safe_partial`. -/
def Op.modest (s : St) : Op → Prop
  | .packet p => s.st = .idle → Modest p
  | .loop e => e.a1 = [] ∧ (∀ p ∈ e.a2, Modest p) ∧ (∀ p ∈ e.a3, Modest p) ∧ e.resp.length ≤ 1340
  | .other _ b => b.length ≤ 1342
  | _ => True

theorem step_inv {s : St} {op : Op} (h : Inv s) (ho : op.modest s) : ∃ t, step s op = .ok t ∧ Inv t := by
  cases op with
  | packet p => exact outEvent_inv h ho
  | finished => exact ⟨_, rfl, h.short, h.buf, h.inLen, h.xfr, h.rcv⟩
  | otherEnd o => exact ⟨_, rfl, h.short, h.buf, h.inLen, h.xfr, h.rcv⟩
  | other o b =>
    simp only [step]
    split
    · obtain ⟨b', w1, w2⟩ := wr_length (b := s.buf) (off := 0) (d := b) (by
        have ho : b.length ≤ 1342 := ho
        rw [h.buf]; omega)
      rw [w1, ok_bind]
      exact ⟨_, rfl, h.short, w2.trans h.buf, h.inLen, h.xfr, h.rcv⟩
    · exact ⟨_, rfl, h.short, h.buf, h.inLen, h.xfr, h.rcv⟩
  | loop e =>
    obtain ⟨h1, h2, h3, hr⟩ := ho
    simp only [step, loop]
    split
    · exact ⟨s, rfl, h⟩
    have fin : ∀ {x : C St}, (∃ t, x = .ok t ∧ Inv t) → ∃ t, (do
        let s ← x
        let s ← outEvents s e.a3
        return { s with has := 0 }) = .ok t ∧ Inv t := by
      rintro x ⟨t, rfl, ht⟩
      rw [ok_bind]
      obtain ⟨u, e2, hu⟩ := outEvents_inv e.a3 ht h3
      rw [e2, ok_bind]
      exact ⟨_, rfl, hu.short, hu.buf, hu.inLen, hu.xfr, hu.rcv⟩
    have hc := check_inv h
    have hpon : Inv (powerOn s) := by
      unfold powerOn
      have := (hc true true false).1
      generalize check s true true false = c at this
      simp only
      repeat' split
      all_goals exact ⟨this.short, this.buf, this.inLen, this.xfr, this.rcv⟩
    have hpoff : Inv (powerOff s) := by
      unfold powerOff
      have := (hc true false true).1
      generalize check s true false true = c at this
      simp only
      repeat' split
      all_goals exact ⟨this.short, this.buf, this.inLen, this.xfr, this.rcv⟩
    have hslot : Inv (slotStatus s) := by
      unfold slotStatus
      exact sendShort_inv (hc true false true).1 _ _ _ _
    have hpar : Inv (getParams s) := by
      unfold getParams
      have := (hc true false true).1
      generalize check s true false true = c at this
      simp only
      repeat' split
      all_goals exact ⟨this.short, this.buf, this.inLen, this.xfr, this.rcv⟩
    split
    · exact fin ⟨_, rfl, hpon⟩
    split
    · exact fin ⟨_, rfl, hpoff⟩
    split
    · exact fin ⟨_, rfl, hslot⟩
    split
    · next hm =>
      split
      · exact fin ⟨_, rfl, sendShort_inv h _ _ _ _⟩
      · exact fin (xfrBlock_inv h (by simpa using hm) h1 h2 hr)
    split
    · exact fin ⟨_, rfl, hpar⟩
    split
    · exact fin ⟨_, rfl, sendShort_inv h _ _ _ _⟩
    split
    · exact fin ⟨_, rfl, sendShort_inv h _ _ _ _⟩
    split
    · exact fin ⟨_, rfl, sendShort_inv h _ _ _ _⟩
    · exact fin ⟨_, rfl, sendShort_inv h _ _ _ _⟩

theorem init_inv : Inv St.init :=
  ⟨List.length_replicate, List.length_replicate, by decide, by decide, fun h => by cases h⟩

/-- Every operation of the history satisfies its condition in the state it happens in. -/
def Along (P : St → Op → Prop) (s : St) : List Op → Prop
  | [] => True
  | op :: h => P s op ∧ ∀ t, step s op = .ok t → Along P t h

theorem run_inv : ∀ (h : List Op) {s : St}, Inv s → Along (fun s op => op.modest s) s h → ∃ t, run s h = .ok t ∧ Inv t
  | [], s, hs, _ => ⟨s, rfl, hs⟩
  | op :: h, s, hs, ho => by
    obtain ⟨t, e, ht⟩ := step_inv hs ho.1
    rw [run, e, ok_bind]
    exact run_inv h ht (ho.2 t e)

/-- **C47** (partial: an XfrBlock that announces more than 1342 bytes breaks it, see `C47_refuted`; so does a packet that
arrives just before a command is decoded, see `C47_refuted_race`). Whatever packets arrive and whatever other interfaces
do, no byte outside the buffers of the interface is read or written, if no first packet is an XfrBlock announcing more
than 1342 bytes. -/
theorem C47_buffer_safe_partial (h : List Op) (ho : Along (fun s op => op.modest s) St.init h) :
    ∃ s, run St.init h = .ok s := by
  obtain ⟨t, e, -⟩ := run_inv h init_inv ho
  exact ⟨t, e⟩

/-! ### Ownership -/

/-- The host waits for each response before it sends the next command: packets arrive only when no command is waiting
and never during the main loop, the end of a transmission is not reported in the middle of a message. -/
def Op.polite (s : St) : Op → Prop
  | .packet _ => s.has = 0
  | .loop e => quiet e
  | .finished => s.has = 0 ∧ s.st = .idle
  | .other o _ => o ≠ 1 ∧ o ≠ 2
  | .otherEnd o => o ≠ 2

/-- The interface owns the buffer while it receives or executes an XfrBlock. -/
structure Own (s : St) : Prop where
  one : s.st = .receive → s.hdr.mt = mXfrBlock → s.owner = ownerCcid
  exec : s.has ≠ 0 → s.has ≠ 2 → s.hdr.mt = mXfrBlock → s.owner = ownerCcid
  rcv : s.st = .receive → s.hdr.mt ≠ mXfrBlock → s.hdr.len ≤ 8
  none : s.has ≠ 0 → s.st = .idle

theorem store_frame {s t : St} {off : Nat} {d : Bytes} (e : store s off d = .ok t) :
    t.hdr = s.hdr ∧ t.owner = s.owner ∧ t.st = s.st ∧ t.has = s.has ∧ (s.hdr.len ≤ 8 → t.buf = s.buf) ∧ t.log = s.log := by
  unfold store at e
  split at e
  · cases h : wrRange s.short off d with
    | error u => rw [h] at e; cases e
    | ok b => rw [h] at e; cases e; exact ⟨rfl, rfl, rfl, rfl, fun _ => rfl, rfl⟩
  · next h8 =>
    cases h : wrRange s.buf off d with
    | error u => rw [h] at e; cases e
    | ok b =>
      rw [h] at e; cases e
      refine ⟨rfl, rfl, rfl, rfl, fun h' => ?_, rfl⟩
      simp [St.isShort, h'] at h8

theorem outEvent_own {s t : St} {p : Bytes} (h : Own s) (h0 : s.has = 0) (e : outEvent s p = .ok t) :
    Own t ∧ (s.owner ≠ 1 → s.owner ≠ 2 → t.buf = s.buf ∧ t.owner = s.owner) ∧ t.log = s.log := by
  unfold outEvent at e
  cases hst : s.st with
  | idle =>
    rw [hst] at e
    simp only at e
    split at e
    · next hlen =>
      unfold firstPacket at e
      obtain ⟨x, hx, -, -⟩ := parseHdr_ok hlen
      rw [hx, ok_bind] at e
      simp only at e
      have fin : ∀ (o : Nat) (keep : Bool), (keep = true → (x.mt = mXfrBlock ∧ o = ownerCcid) ∨ (x.mt ≠ mXfrBlock ∧ x.len ≤ 8)) →
          (x.mt = mXfrBlock → keep = false → o ≠ ownerCcid) →
          (s.owner ≠ 1 → s.owner ≠ 2 → o = s.owner) →
          (do
            let s ← if keep then store { s with hdr := x, slot := x.slot, seq := x.seq, ab := min (p.length - 10) x.len, owner := o } 0 ((p.drop 10).take (min (p.length - 10) x.len)) else pure { s with hdr := x, slot := x.slot, seq := x.seq, ab := min (p.length - 10) x.len, owner := o }
            if min (p.length - 10) x.len ≥ x.len then return { s with has := if keep then 1 else 2 }
            else return { s with st := if keep then .receive else .discard }) = .ok t →
          Own t ∧ (s.owner ≠ 1 → s.owner ≠ 2 → t.buf = s.buf ∧ t.owner = s.owner) ∧ t.log = s.log := by
        intro o keep hk hk' ho e
        have fin2 : ∀ u : St, u.hdr = x → u.owner = o → u.st = s.st → u.has = s.has → u.log = s.log →
            ((keep = false ∨ x.len ≤ 8) → u.buf = s.buf) →
            (if min (p.length - 10) x.len ≥ x.len then (pure { u with has := if keep then 1 else 2 } : C St)
            else pure { u with st := if keep then .receive else .discard }) = .ok t →
            Own t ∧ (s.owner ≠ 1 → s.owner ≠ 2 → t.buf = s.buf ∧ t.owner = s.owner) ∧ t.log = s.log := by
          intro u u1 u2 u3 u4 u5 u6 e
          have hbuf : s.owner ≠ 1 → s.owner ≠ 2 → u.buf = s.buf ∧ u.owner = s.owner := fun a b => by
            refine ⟨u6 ?_, u2.trans (ho a b)⟩
            cases keep with
            | false => exact .inl rfl
            | true =>
              rcases hk rfl with ⟨-, h2⟩ | ⟨-, h2⟩
              · exact absurd ((ho a b).symm.trans h2) b
              · exact .inr h2
          split at e
          · cases e
            refine ⟨⟨fun c => ?_, fun c c' d => ?_, fun c => ?_, fun _ => u3.trans hst⟩, hbuf, u5⟩
            · exact absurd (c.symm.trans (u3.trans hst)) (by decide)
            · cases keep with
              | false => exact absurd rfl c'
              | true =>
                simp only [u1] at d
                rcases hk rfl with ⟨-, h2⟩ | ⟨h2, -⟩
                · exact u2.trans h2
                · exact absurd d h2
            · exact absurd (c.symm.trans (u3.trans hst)) (by decide)
          · cases e
            refine ⟨⟨fun c d => ?_, fun c => ?_, fun c d => ?_, fun c => ?_⟩, hbuf, u5⟩
            · cases keep with
              | false => cases c
              | true =>
                simp only [u1] at d
                rcases hk rfl with ⟨-, h2⟩ | ⟨h2, -⟩
                · exact u2.trans h2
                · exact absurd d h2
            · exact absurd (u4.trans h0) c
            · cases keep with
              | false => cases c
              | true =>
                simp only [u1] at d ⊢
                rcases hk rfl with ⟨h2, -⟩ | ⟨-, h2⟩
                · exact absurd h2 d
                · exact h2
            · exact absurd (u4.trans h0) c
        cases keep with
        | false =>
          simp only [Bool.false_eq_true, if_false, pure_eq_ok, ok_bind] at e
          exact fin2 { s with hdr := x, slot := x.slot, seq := x.seq, ab := min (p.length - 10) x.len, owner := o } rfl rfl rfl rfl
            rfl (fun _ => rfl) e
        | true =>
          simp only [if_true] at e
          revert e
          generalize hq : store { s with hdr := x, slot := x.slot, seq := x.seq, ab := min (p.length - 10) x.len, owner := o } 0 ((p.drop 10).take (min (p.length - 10) x.len)) = q
          intro e
          cases q with
          | error u => cases e
          | ok u =>
            obtain ⟨u1, u2, u3, u4, u5, u6⟩ := store_frame hq
            exact fin2 u u1 u2 u3 u4 u6 (fun h => u5 (h.resolve_left (by decide))) e
      by_cases hm : x.mt = mXfrBlock
      · have hb : (x.mt == mXfrBlock) = true := by simpa using hm
        simp only [hb, if_true] at e
        refine fin _ _ (fun hk => .inl ⟨hm, by simpa [Apdu.acquireRead] using hk⟩)
          (fun _ hk => by simpa [Apdu.acquireRead] using hk) (fun h1 h2 => ?_) e
        simp [Apdu.acquireCas, Apdu.cas, Apdu.ownerNone, h1]
      · have hb : (x.mt == mXfrBlock) = false := by simpa using hm
        simp only [hb, Bool.false_eq_true, if_false] at e
        exact fin s.owner _ (fun hk => .inr ⟨hm, by simpa [St.isShort] using hk⟩) (fun h' => absurd h' hm) (fun _ _ => rfl) e
    · cases e
      exact ⟨h, fun _ _ => ⟨rfl, rfl⟩, rfl⟩
  | receive =>
    rw [hst] at e
    simp only at e
    have hbuf : ∀ {u : St} {d : Bytes}, store s s.ab d = .ok u → s.owner ≠ 1 → s.owner ≠ 2 → u.buf = s.buf ∧ u.owner = s.owner := by
      intro u d eu _ a
      obtain ⟨-, u2, -, -, u5, -⟩ := store_frame eu
      refine ⟨u5 ?_, u2⟩
      by_cases hm : s.hdr.mt = mXfrBlock
      · exact absurd (h.one hst hm) a
      · exact h.rcv hst hm
    split at e
    · cases hq : store s s.ab p with
      | error u => rw [hq] at e; cases e
      | ok u =>
        rw [hq, ok_bind] at e
        cases e
        obtain ⟨u1, u2, u3, u4, -, u6⟩ := store_frame hq
        refine ⟨⟨fun c d => ?_, fun c => ?_, fun c d => ?_, fun c => ?_⟩, fun a b => hbuf (u := u) hq a b, u6⟩
        · exact u2.trans (h.one hst (by rw [← u1]; exact d))
        · exact absurd (u4.trans h0) c
        · show u.hdr.len ≤ 8
          rw [u1]
          exact h.rcv hst (by rw [← u1]; exact d)
        · exact absurd (u4.trans h0) c
    · cases hq : store s s.ab (p.take (s.hdr.len - s.ab)) with
      | error u => rw [hq] at e; cases e
      | ok u =>
        rw [hq, ok_bind] at e
        cases e
        obtain ⟨u1, u2, u3, u4, -, u6⟩ := store_frame hq
        refine ⟨⟨(fun c => by cases c), fun c c' d => ?_, (fun c => by cases c), fun _ => rfl⟩, fun a b => hbuf (u := u) hq a b, u6⟩
        exact u2.trans (h.one hst (by rw [← u1]; exact d))
  | discard =>
    rw [hst] at e
    simp only at e
    split at e
    · cases e
      refine ⟨⟨fun c => ?_, fun c => ?_, fun c => ?_, fun c => absurd h0 c⟩, fun _ _ => ⟨rfl, rfl⟩, rfl⟩
      · cases c
      · exact absurd h0 c
      · cases c
    · cases e
      exact ⟨⟨(fun c => by cases c), (fun _ c => absurd rfl c), (fun c => by cases c), fun _ => rfl⟩, fun _ _ => ⟨rfl, rfl⟩, rfl⟩

/-- A turn of the main loop that executes no XfrBlock leaves buffer and owner alone. -/
theorem loop_own {s t : St} {e : Env} (hq : quiet e) (h : Own s) (he : loop s e = .ok t) :
    Own t ∧ (s.owner ≠ 2 → t.buf = s.buf ∧ t.owner = s.owner) := by
  obtain ⟨q1, q2, q3⟩ := hq
  unfold loop at he
  split at he
  · cases he
    exact ⟨h, fun _ => ⟨rfl, rfl⟩⟩
  next h0 =>
  have h0 : s.has ≠ 0 := by simpa using h0
  have hidle := h.none h0
  have fin : ∀ {u : St}, u.st = .idle → (u.buf = s.buf ∧ u.owner = s.owner) → (do
        let s ← (pure u : C St)
        let s ← outEvents s e.a3
        return { s with has := 0 }) = .ok t → Own t ∧ (s.owner ≠ 2 → t.buf = s.buf ∧ t.owner = s.owner) := by
    intro u hu hb e
    rw [q3] at e
    cases e
    refine ⟨⟨fun c => ?_, fun c => absurd rfl c, fun c => ?_, fun c => absurd rfl c⟩, fun _ => hb⟩
    · rw [hu] at c; cases c
    · rw [hu] at c; cases c
  have hc : ∀ a b c, (check s a b c).1.st = .idle ∧ (check s a b c).1.buf = s.buf ∧ (check s a b c).1.owner = s.owner := by
    intro a b c
    unfold check
    repeat' split
    all_goals exact ⟨hidle, rfl, rfl⟩
  have hs : ∀ {u : St} (mt er sp : Byte) (d : Bytes), u.st = .idle ∧ u.buf = s.buf ∧ u.owner = s.owner →
      (sendShort u mt er sp d).st = .idle ∧ (sendShort u mt er sp d).buf = s.buf ∧ (sendShort u mt er sp d).owner = s.owner :=
    fun _ _ _ _ h => h
  have h1 : (powerOn s).st = .idle ∧ (powerOn s).buf = s.buf ∧ (powerOn s).owner = s.owner := by
    unfold powerOn
    simp only
    repeat' split
    all_goals exact hc true true false
  have h2 : (powerOff s).st = .idle ∧ (powerOff s).buf = s.buf ∧ (powerOff s).owner = s.owner := by
    unfold powerOff
    simp only
    repeat' split
    all_goals exact hc true false true
  have h3 : (slotStatus s).st = .idle ∧ (slotStatus s).buf = s.buf ∧ (slotStatus s).owner = s.owner := hc true false true
  have h4 : (getParams s).st = .idle ∧ (getParams s).buf = s.buf ∧ (getParams s).owner = s.owner := by
    unfold getParams
    simp only
    repeat' split
    all_goals exact hc true false true
  simp only at he
  split at he
  · exact fin h1.1 h1.2 he
  split at he
  · exact fin h2.1 h2.2 he
  split at he
  · exact fin h3.1 h3.2 he
  split at he
  · next hm =>
    have hm : s.hdr.mt = mXfrBlock := by simpa using hm
    split at he
    · exact fin (by exact hidle) (by exact ⟨rfl, rfl⟩) he
    next h2' =>
      cases hx : xfrBlock s e with
      | error u => rw [hx] at he; cases he
      | ok u =>
        rw [hx, ok_bind, q3] at he
        cases he
        have hu : u.st = .idle := by
          unfold xfrBlock at hx
          rw [q1, q2] at hx
          simp only [outEvents, ok_bind] at hx
          have hc0 := hc false false false
          generalize check s false false false = c at hx hc0
          obtain ⟨c, err⟩ := c
          simp only at hx hc0
          have hsd : ∀ {v w : St} {er : Byte}, sendData v er = .ok w → w.st = v.st := by
            intro v w er hv
            unfold sendData at hv
            cases hr : rdRange v.buf 0 (v.inLen % 65536) with
            | error _ => rw [hr] at hv; cases hv
            | ok _ => rw [hr] at hv; cases hv; rfl
          split at hx
          · exact (hsd hx).trans hc0.1
          · revert hx
            generalize (rdRange (if s.isShort = true then c.short else c.buf) 0 (c.hdr.len % 65536)) = r
            cases r with
            | error _ => intro hx; cases hx
            | ok cmd =>
              rw [ok_bind]
              obtain ⟨r, hb⟩ := Apdu.C05_never_oob cmd
              rw [hb, ok_bind]
              intro hx
              cases r with
              | none =>
                simp only at hx
                revert hx
                generalize wrRange c.buf 0 [0x67, 0x00] = w
                cases w with
                | error _ => intro hx; cases hx
                | ok b => intro hx; exact (hsd hx).trans hc0.1
              | some _ =>
                simp only at hx
                revert hx
                generalize wrRange c.buf 0 (e.resp ++ [e.sw1, e.sw2]) = w
                cases w with
                | error _ => intro hx; cases hx
                | ok b => intro hx; exact (hsd hx).trans hc0.1
        refine ⟨⟨fun c => ?_, fun c => absurd rfl c, fun c => ?_, fun c => absurd rfl c⟩, fun hne => ?_⟩
        · exact absurd (hu.symm.trans c) (by decide)
        · exact absurd (hu.symm.trans c) (by decide)
        · exact absurd (h.exec h0 (by simpa using h2') hm) hne
  split at he
  · exact fin h4.1 h4.2 he
  split at he
  · exact fin (by exact hidle) (by exact ⟨rfl, rfl⟩) he
  split at he
  · exact fin (by exact hidle) (by exact ⟨rfl, rfl⟩) he
  split at he
  · exact fin (by exact hidle) (by exact ⟨rfl, rfl⟩) he
  · exact fin (by exact hidle) (by exact ⟨rfl, rfl⟩) he

theorem step_own {s t : St} {op : Op} (h : Own s) (hp : op.polite s) (e : step s op = .ok t) : Own t := by
  cases op with
  | packet p => exact (outEvent_own h hp e).1
  | loop ev => exact (loop_own hp h e).1
  | finished =>
    cases e
    refine ⟨fun c => ?_, fun c => absurd hp.1 c, fun c => ?_, fun c => absurd hp.1 c⟩
    · exact absurd (hp.2.symm.trans c) (by decide)
    · exact absurd (hp.2.symm.trans c) (by decide)
  | otherEnd o =>
    cases e
    have ho : s.owner = ownerCcid → Apdu.releaseCas s.owner o = ownerCcid := fun c => by
      have : ¬ ownerCcid = o := fun d => hp d.symm
      simp [Apdu.releaseCas, Apdu.cas, c, this]
    exact ⟨fun a b => ho (h.one a b), fun a b c => ho (h.exec a b c), h.rcv, h.none⟩
  | other o b =>
    have ho : s.owner = ownerCcid → Apdu.acquireCas s.owner o = ownerCcid := fun c => by
      simp [Apdu.acquireCas, Apdu.cas, c, ownerCcid, Apdu.ownerNone]
    simp only [step] at e
    split at e
    · cases hw : wrRange s.buf 0 b with
      | error u => rw [hw] at e; cases e
      | ok b' =>
        rw [hw] at e
        cases e
        exact ⟨fun a b => ho (h.one a b), fun a b c => ho (h.exec a b c), h.rcv, h.none⟩
    · cases e
      exact ⟨fun a b => ho (h.one a b), fun a b c => ho (h.exec a b c), h.rcv, h.none⟩

theorem init_own : Own St.init :=
  ⟨(fun h => by cases h), (fun h => absurd rfl h), (fun h => by cases h), fun h => absurd rfl h⟩

theorem run_own : ∀ (h : List Op) {s t : St}, Own s → Along (fun s op => op.polite s) s h → run s h = .ok t → Own t
  | [], s, t, hs, _, e => by cases e; exact hs
  | op :: h, s, t, hs, ho, e => by
    rw [run] at e
    cases hq : step s op with
    | error u => rw [hq] at e; cases e
    | ok u =>
      rw [hq, ok_bind] at e
      exact run_own h (step_own hs ho.1 hq) (ho.2 u hq) e

/-- **C70** (partial: for a host that waits for each response before it sends the next command; see `C70_refuted`).
While another interface holds the buffer, nothing the CCID host does changes the contents of the buffer or its owner. -/
theorem C70_buffer_respected_partial (h : List Op) (s : St) (ho : Along (fun s op => op.polite s) St.init h)
    (hr : run St.init h = .ok s) (h1 : s.owner ≠ 1) (h2 : s.owner ≠ 2) (op : Op)
    (hop : (∃ p, op = .packet p) ∨ (∃ e, op = .loop e) ∨ op = .finished) (hp : op.polite s) (t : St)
    (e : step s op = .ok t) : t.buf = s.buf ∧ t.owner = s.owner := by
  have hs := run_own h init_own ho hr
  rcases hop with ⟨p, rfl⟩ | ⟨ev, rfl⟩ | rfl
  · exact (outEvent_own hs hp e).2.1 h1 h2
  · exact (loop_own hp hs e).2 h2
  · cases e
    exact ⟨rfl, by simp only [Apdu.releaseCas, Apdu.cas]; exact if_neg h2⟩

/-! ### Refused commands -/

/-- In the middle of a message that is discarded. -/
structure Disc (s : St) (m : Msg) (k : Nat) : Prop where
  hdr : s.hdr = hdrOf m
  slot : s.slot = m.slot
  seq : s.seq = m.seq
  st : s.st = .discard
  has : s.has = 0
  ab : s.ab = k

/-- A complete discarded message. -/
structure Gone (s : St) (m : Msg) : Prop where
  hdr : s.hdr = hdrOf m
  slot : s.slot = m.slot
  seq : s.seq = m.seq
  has : s.has = 2

theorem run_disc : ∀ (h : List Op) {s t : St} {m : Msg} {k : Nat}, Disc s m k → m.data.length < 65536 → k < m.data.length →
    (∀ op ∈ h, between op) → (packets h).flatten = m.data.drop k → (∃ p, h.getLast? = some (.packet p) ∧ p ≠ []) →
    run s h = .ok t → Same s t ∧ Gone t m
  | [], s, t, m, k, _, _, hk, _, hp, _, _ => by
    have h1 : (m.data.drop k).length = 0 := by rw [← hp]; rfl
    rw [List.length_drop] at h1
    omega
  | op :: h, s, t, m, k, hs, hm, hk, hb, hp, hl, e => by
    have hb' : ∀ op ∈ h, between op := fun o ho => hb o (List.mem_cons_of_mem _ ho)
    have hl' : h ≠ [] → ∃ p, h.getLast? = some (.packet p) ∧ p ≠ [] := by
      obtain ⟨q, hl1, hl2⟩ := hl
      intro hne
      cases h with
      | nil => exact absurd rfl hne
      | cons o h => exact ⟨q, by rwa [List.getLast?_cons_cons] at hl1, hl2⟩
    have keep : ∀ u : St, step s op = .ok u → Disc u m k → Same s u → (packets h).flatten = m.data.drop k →
        (∀ p, op ≠ .packet p) → Same s t ∧ Gone t m := by
      intro u eu hu hsame hp' hq
      rw [run, eu, ok_bind] at e
      have hne : h ≠ [] := by
        rintro rfl
        obtain ⟨q, hl1, -⟩ := hl
        simp only [List.getLast?_singleton, Option.some.injEq] at hl1
        exact hq q hl1
      obtain ⟨r1, r2⟩ := run_disc h hu hm hk hb' hp' (hl' hne) e
      exact ⟨⟨r1.log.trans hsame.log, r1.status.trans hsame.status⟩, r2⟩
    have hhl : s.hdr.len = m.data.length := by rw [hs.hdr]; rfl
    cases op with
    | packet p =>
      have hpp : p ++ (packets h).flatten = m.data.drop k := by simpa [packets] using hp
      have hlen : p.length + (packets h).flatten.length = m.data.length - k := by
        rw [← List.length_append, hpp, List.length_drop]
      rw [run] at e
      simp only [step, outEvent, hs.st, hs.ab, hhl] at e
      by_cases hr : (packets h).flatten = []
      · rw [hr, List.length_nil, Nat.add_zero] at hlen
        rw [if_neg (by omega), ok_bind] at e
        have hnil : h = [] := by
          cases h with
          | nil => rfl
          | cons o h =>
            obtain ⟨q, hl1, hl2⟩ := hl' (by simp)
            exact absurd (List.flatten_eq_nil_iff.1 hr q (mem_packets (List.mem_of_getLast? hl1))) hl2
        subst hnil
        cases e
        exact ⟨⟨rfl, rfl⟩, hs.hdr, hs.slot, hs.seq, rfl⟩
      · have := List.length_pos_iff.2 hr
        rw [if_pos (by omega), ok_bind] at e
        have hne : h ≠ [] := by rintro rfl; exact hr rfl
        obtain ⟨r1, r2⟩ := run_disc h (m := m) (k := k + p.length)
          (s := { s with ab := (k + p.length) % 65536, st := .discard }) ⟨hs.hdr, hs.slot, hs.seq, rfl, hs.has,
          by show (k + p.length) % 65536 = _; rw [Nat.mod_eq_of_lt (by omega)]⟩ hm (by omega) hb'
          (by rw [← List.drop_drop, ← hpp, List.drop_left]) (hl' hne) e
        exact ⟨⟨r1.log, r1.status⟩, r2⟩
    | loop ev =>
      exact keep s (by simp [step, loop, hs.has]) hs ⟨rfl, rfl⟩ (by simpa [packets] using hp) (by simp)
    | finished => exact (hb _ List.mem_cons_self).elim
    | otherEnd o =>
      exact keep _ rfl ⟨hs.hdr, hs.slot, hs.seq, hs.st, hs.has, hs.ab⟩ ⟨rfl, rfl⟩ (by simpa [packets] using hp) (by simp)
    | other o b =>
      cases hq : step s (.other o b) with
      | error u => rw [run, hq] at e; cases e
      | ok u =>
        have hu : Disc u m k ∧ Same s u := by
          simp only [step] at hq
          split at hq
          · cases hw : wrRange s.buf 0 b with
            | error u => rw [hw] at hq; cases hq
            | ok b' =>
              rw [hw] at hq; cases hq
              exact ⟨⟨hs.hdr, hs.slot, hs.seq, hs.st, hs.has, hs.ab⟩, rfl, rfl⟩
          · cases hq
            exact ⟨⟨hs.hdr, hs.slot, hs.seq, hs.st, hs.has, hs.ab⟩, rfl, rfl⟩
        exact keep u hq hu.1 hu.2 (by simpa [packets] using hp) (by simp)

/-- **C70.** An XfrBlock whose first packet arrives while another interface holds the buffer is not executed, whatever
happens to the buffer meanwhile; the host gets the status word 6400. -/
theorem C70_refused (s : St) (hs : Ready s) (m : Msg) (hm : m.mt = 0x6F) (hl : m.data.length < 65536)
    (h1 : s.owner ≠ 1) (h2 : s.owner ≠ 2) (p : Bytes) (h : List Op) (hp : 10 ≤ p.length)
    (hsplit : p ++ (packets h).flatten = encode m) (hb : ∀ op ∈ h, between op)
    (hlast : h = [] ∨ ∃ q, h.getLast? = some (.packet q) ∧ q ≠ []) (e : Env) (hq : quiet e) (t : St)
    (hr : run s (.packet p :: h ++ [.loop e]) = .ok t) :
    t.has = 0 ∧ t.log = .sent (resp m 0x80 s.status 0x81 0 [0x64, 0x00]) :: s.log := by
  obtain ⟨e1, hd⟩ := parseHdr_encode (by omega) hp hsplit
  have hdl : p.length - 10 + (packets h).flatten.length = m.data.length := by rw [← hd]; simp
  have hmin : min (p.length - 10) (hdrOf m).len = p.length - 10 := by
    show min (p.length - 10) m.data.length = _
    omega
  have ho : Apdu.acquireCas s.owner ownerCcid = s.owner := by
    simp [Apdu.acquireCas, Apdu.cas, Apdu.ownerNone, h1]
  have hne : Apdu.acquireRead s.owner ownerCcid = false := by
    simpa [Apdu.acquireRead, ownerCcid] using h2
  have hmt : ((hdrOf m).mt == mXfrBlock) = true := by
    have : m.mt = mXfrBlock := hm
    simpa [hdrOf] using this
  -- after the first packet
  have hfirst : outEvent s p = .ok (if (packets h).flatten = [] then
        { s with hdr := hdrOf m, slot := m.slot, seq := m.seq, ab := p.length - 10, st := .idle, has := 2 }
      else { s with hdr := hdrOf m, slot := m.slot, seq := m.seq, ab := p.length - 10, st := .discard }) := by
    unfold outEvent
    rw [hs.st]
    simp only [ge_iff_le, hp, if_true]
    unfold firstPacket
    rw [e1, ok_bind]
    simp only [hmin, hmt, if_true, ho, hne, Bool.false_eq_true, if_false, pure_eq_ok, ok_bind]
    by_cases hr : (packets h).flatten = []
    · rw [hr, List.length_nil, Nat.add_zero] at hdl
      rw [if_pos hr, if_pos (show (hdrOf m).len ≤ _ from Nat.le_of_eq hdl.symm), hs.st]
      rfl
    · have := List.length_pos_iff.2 hr
      rw [if_neg hr, if_neg (by show ¬ m.data.length ≤ _; omega)]
      rfl
  have fin : ∀ u : St, run s (.packet p :: h) = .ok u → Same s u → Gone u m →
      t.has = 0 ∧ t.log = .sent (resp m 0x80 s.status 0x81 0 [0x64, 0x00]) :: s.log := by
    intro u eu hsame hg
    rw [run_snoc eu] at hr
    have hmt' : u.hdr.mt = mXfrBlock := by rw [hg.hdr]; exact hm
    simp only [step, loop, hg.has, hmt', show ((2 : Nat) == 0) = false from rfl, show ((2 : Nat) == 2) = true from rfl,
      Bool.false_eq_true, if_false, show (mXfrBlock == mPowerOn) = false from rfl,
      show (mXfrBlock == mPowerOff) = false from rfl, show (mXfrBlock == mSlotStatus) = false from rfl,
      show (mXfrBlock == mXfrBlock) = true from rfl, if_true, hq.2.2, outEvents, pure_eq_ok, ok_bind] at hr
    cases hr
    refine ⟨rfl, ?_⟩
    show Ev.sent (respHdr u 0x80 2 0x81 0 ++ [0x64, 0x00]) :: u.log = _
    rw [hsame.log, ← hsame.status]
    congr 2
    exact respHdr_resp u m 0x80 0x81 0 [0x64, 0x00] hg.slot hg.seq
  cases hu : run s (.packet p :: h) with
  | error x =>
    have : ∀ (l : List Op) (s : St), run s l = .error x → run s (l ++ [.loop e]) = .error x := by
      intro l
      induction l with
      | nil => intro s h; cases h
      | cons o l ih =>
        intro s h
        simp only [List.cons_append, run] at h ⊢
        cases hq : step s o with
        | error y => rw [hq] at h; exact h
        | ok s' => rw [hq, ok_bind] at h; rw [ok_bind]; exact ih s' h
    rw [this _ _ hu] at hr
    cases hr
  | ok u =>
    have hu' := hu
    rw [run] at hu'
    have hst : step s (.packet p) = outEvent s p := rfl
    rw [hst, hfirst, ok_bind] at hu'
    rcases hlast with rfl | hl'
    · rw [if_pos (show (packets []).flatten = [] from rfl)] at hu'
      cases hu'
      exact fin _ hu ⟨rfl, rfl⟩ ⟨rfl, rfl, rfl, rfl⟩
    · have hne' : (packets h).flatten ≠ [] := by
        obtain ⟨q, hl1, hl2⟩ := hl'
        intro hnil
        exact hl2 (List.flatten_eq_nil_iff.1 hnil q (mem_packets (List.mem_of_getLast? hl1)))
      rw [if_neg hne'] at hu'
      have := List.length_pos_iff.2 hne'
      obtain ⟨r1, r2⟩ := run_disc h (m := m) (k := p.length - 10)
        (s := { s with hdr := hdrOf m, slot := m.slot, seq := m.seq, ab := p.length - 10, st := .discard })
        ⟨rfl, rfl, rfl, rfl, hs.has, rfl⟩ hl (by omega) hb
        (by rw [← hd, show p.length - 10 = (p.drop 10).length by simp, List.drop_left]) hl' hu'
      exact fin _ hu ⟨r1.log, r1.status⟩ r2

end Verif.Ccid
