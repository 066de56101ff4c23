import Verif.Spec.Ccid
import Verif.Base.MemMore
import Verif.Props.Apdu
/-
CCID: reception of one message.
-/
namespace Verif.Ccid
open Verif.Spec.Ccid

/-- The header of a message. -/
def hdrOf (m : Msg) : Hdr := ⟨m.mt, m.data.length, m.slot, m.seq, m.p0, m.p1, m.p2⟩

theorem le4_val {n : Nat} (h : n < 2 ^ 32) :
    (UInt8.ofNat n).toNat + 256 * (UInt8.ofNat (n / 256)).toNat + 65536 * (UInt8.ofNat (n / 65536)).toNat +
      16777216 * (UInt8.ofNat (n / 16777216)).toNat = n := by
  simp only [UInt8.toNat_ofNat', show (2:Nat)^8 = 256 from rfl]; omega

theorem parseHdr_encode {m : Msg} {p r : Bytes} (hl : m.data.length < 2 ^ 32) (hp : 10 ≤ p.length)
    (h : p ++ r = encode m) : parseHdr p = .ok (hdrOf m) ∧ p.drop 10 ++ r = m.data := by
  rcases p with _ | ⟨x0, _ | ⟨x1, _ | ⟨x2, _ | ⟨x3, _ | ⟨x4, _ | ⟨x5, _ | ⟨x6, _ | ⟨x7, _ | ⟨x8, _ | ⟨x9, q⟩⟩⟩⟩⟩⟩⟩⟩⟩⟩
  all_goals try (simp at hp; done)
  simp only [encode, le4, List.cons_append, List.nil_append, List.cons.injEq] at h
  obtain ⟨rfl, rfl, rfl, rfl, rfl, rfl, rfl, rfl, rfl, rfl, h⟩ := h
  refine ⟨?_, by simpa using h⟩
  simp only [parseHdr, rd, List.getElem?_cons_zero, List.getElem?_cons_succ, ok_bind, pure_eq_ok, hdrOf, le4_val hl]

/-- What has been received of a message: `k` bytes of data. -/
structure Got (s : St) (m : Msg) (k : Nat) : Prop where
  hdr : s.hdr = hdrOf m
  slot : s.slot = m.slot
  seq : s.seq = m.seq
  short : s.short.length = 8
  buf : s.buf.length = 1342
  own : m.mt = mXfrBlock → s.owner = ownerCcid
  data : (if m.data.length ≤ 8 then s.short else s.buf).take k = m.data.take k

/-- In the middle of a message. -/
structure Mid (s : St) (m : Msg) (k : Nat) : Prop extends Got s m k where
  st : s.st = .receive
  has : s.has = 0
  ab : s.ab = k
  lt : k < m.data.length

/-- A complete message. -/
structure Full (s : St) (m : Msg) : Prop extends Got s m m.data.length where
  st : s.st = .idle
  has : s.has = 1

theorem isShort_eq {s : St} {m : Msg} (h : s.hdr = hdrOf m) : s.isShort = decide (m.data.length ≤ 8) := by
  simp [St.isShort, h, hdrOf]

/-- Storing more bytes. -/
theorem store_got {s : St} {m : Msg} {k : Nat} {d : Bytes} (h : Got s m k) (hk : k + d.length ≤ m.data.length)
    (hf : Fits m) (hd : m.data.take (k + d.length) = m.data.take k ++ d) :
    ∃ t, store s k d = .ok t ∧ Got t m (k + d.length) ∧ t.st = s.st ∧ t.has = s.has ∧ t.log = s.log ∧
      t.status = s.status ∧ t.ab = s.ab := by
  have hfit : m.data.length ≤ 1342 := by
    unfold Fits at hf
    split at hf <;> omega
  unfold store
  rw [isShort_eq h.hdr]
  by_cases h8 : m.data.length ≤ 8
  · obtain ⟨b', h1, h2, h3⟩ := wr_take (b := s.short) (off := k) (d := d) (by rw [h.short]; omega)
    simp only [h8, decide_true, if_true, h1, ok_bind, pure_eq_ok]
    have hdat := h.data
    rw [if_pos h8] at hdat
    refine ⟨_, rfl, ⟨h.hdr, h.slot, h.seq, h2.trans h.short, h.buf, h.own, ?_⟩, rfl, rfl, rfl, rfl, rfl⟩
    rw [if_pos h8]
    show b'.take _ = _
    rw [h3, hdat, hd]
  · obtain ⟨b', h1, h2, h3⟩ := wr_take (b := s.buf) (off := k) (d := d) (by rw [h.buf]; omega)
    simp only [h8, decide_false, Bool.false_eq_true, if_false, h1, ok_bind, pure_eq_ok]
    have hdat := h.data
    rw [if_neg h8] at hdat
    refine ⟨_, rfl, ⟨h.hdr, h.slot, h.seq, h.short, h2.trans h.buf, h.own, ?_⟩, rfl, rfl, rfl, rfl, rfl⟩
    rw [if_neg h8]
    show b'.take _ = _
    rw [h3, hdat, hd]

/-- Unchanged by reception. -/
structure Same (s t : St) : Prop where
  log : t.log = s.log
  status : t.status = s.status

theorem first_got {s : St} {m : Msg} {p r : Bytes} (hs : Ready s) (ho : m.mt = mXfrBlock → s.owner = 1 ∨ s.owner = 2)
    (hf : Fits m) (hp : 10 ≤ p.length) (he : p ++ r = encode m) :
    ∃ t, outEvent s p = .ok t ∧ Same s t ∧ (if r = [] then Full t m else Mid t m (p.length - 10)) := by
  have hfit : m.data.length ≤ 1342 := by
    unfold Fits at hf
    split at hf <;> omega
  obtain ⟨h1, h2⟩ := parseHdr_encode (by omega) hp he
  have hlen : p.length - 10 + r.length = m.data.length := by rw [← h2]; simp
  have htk : m.data.take (p.length - 10) = p.drop 10 := by
    rw [← h2, show p.length - 10 = (p.drop 10).length by simp, List.take_left]
  have hmin : min (p.length - 10) (hdrOf m).len = p.length - 10 := by
    show min (p.length - 10) m.data.length = _
    omega
  have hdd : (p.drop 10).take (p.length - 10) = p.drop 10 := List.take_of_length_le (by simp)
  unfold outEvent
  rw [hs.st]
  simp only [ge_iff_le, hp, if_true]
  unfold firstPacket
  rw [h1, ok_bind]
  simp only [hmin, hdd]
  -- the data is kept
  have key : ∀ o : Nat, (m.mt = mXfrBlock → o = ownerCcid) →
      ∃ t, (do
        let s ← store { s with hdr := hdrOf m, slot := m.slot, seq := m.seq, ab := p.length - 10, owner := o } 0 (p.drop 10)
        if p.length - 10 ≥ m.data.length then return { s with has := 1 }
        else return { s with st := .receive }) = .ok t ∧ Same s t ∧ 
        (if r = [] then Full t m else Mid t m (p.length - 10)) := by
    intro o hown
    obtain ⟨t, e, hg, q1, q2, q3, q4, hab⟩ := store_got (s := { s with hdr := hdrOf m, slot := m.slot, seq := m.seq, ab := p.length - 10, owner := o }) (k := 0) (m := m) (d := p.drop 10) ⟨rfl, rfl, rfl, hs.short, hs.buf, hown, rfl⟩
      (by simp; omega) hf (by simpa using htk)
    rw [e, ok_bind]
    by_cases hr : r = []
    · subst hr
      simp only [List.length_nil, Nat.add_zero] at hlen
      rw [if_pos (Nat.le_of_eq hlen.symm)]
      simp only [if_true]
      have : (0 + (p.drop 10).length) = m.data.length := by simp; omega
      rw [this] at hg
      exact ⟨_, rfl, ⟨q3, q4⟩, ⟨hg.hdr, hg.slot, hg.seq, hg.short, hg.buf, hg.own, hg.data⟩, q1.trans hs.st, rfl⟩
    · have := List.length_pos_iff.2 hr
      rw [if_neg (by omega)]
      simp only [hr, if_false]
      have hk : (0 + (p.drop 10).length) = p.length - 10 := by simp
      rw [hk] at hg
      exact ⟨_, rfl, ⟨q3, q4⟩, ⟨hg.hdr, hg.slot, hg.seq, hg.short, hg.buf, hg.own, hg.data⟩, rfl, q2.trans hs.has, hab, by omega⟩
  by_cases hx : m.mt = mXfrBlock
  · have ho' : Apdu.acquireCas s.owner ownerCcid = ownerCcid := by
      rcases ho hx with h | h <;> simp [Apdu.acquireCas, Apdu.cas, h, Apdu.ownerNone, ownerCcid]
    obtain ⟨t, e, hsame, ht⟩ := key ownerCcid (fun _ => rfl)
    refine ⟨t, ?_, hsame, ht⟩
    have hb : ((hdrOf m).mt == mXfrBlock) = true := by simpa [hdrOf] using hx
    simp only [hb, if_true, ho', Apdu.acquireRead, beq_self_eq_true]
    exact e
  · have h8 : m.data.length ≤ 8 := by
      unfold Fits at hf
      rw [if_neg (show ¬ m.mt = 0x6F from hx)] at hf
      exact hf
    obtain ⟨t, e, hsame, ht⟩ := key s.owner (fun h => absurd h hx)
    refine ⟨t, ?_, hsame, ht⟩
    have hb : ((hdrOf m).mt == mXfrBlock) = false := by simpa [hdrOf] using hx
    have h8' : decide ((hdrOf m).len ≤ 8) = true := decide_eq_true h8
    simp only [hb, Bool.false_eq_true, if_false, St.isShort, h8', if_true]
    exact e

theorem next_got {s : St} {m : Msg} {k : Nat} {p r : Bytes} (h : Mid s m k) (hf : Fits m)
    (he : p ++ r = m.data.drop k) :
    ∃ t, outEvent s p = .ok t ∧ Same s t ∧ (if r = [] then Full t m else Mid t m (k + p.length)) := by
  have hfit : m.data.length ≤ 1342 := by
    unfold Fits at hf
    split at hf <;> omega
  have hlt := h.lt
  have hlen : p.length + r.length = m.data.length - k := by
    rw [← List.length_append, he, List.length_drop]
  have htk : m.data.take (k + p.length) = m.data.take k ++ p := by
    rw [List.take_add, ← he, List.take_left]
  have hhl : s.hdr.len = m.data.length := by rw [h.hdr]; rfl
  obtain ⟨t, e, hg, q1, q2, q3, q4, q5⟩ := store_got h.toGot (by omega) hf htk
  unfold outEvent
  rw [h.st]
  simp only [h.ab, hhl]
  by_cases hr : r = []
  · subst hr
    simp only [List.length_nil, Nat.add_zero] at hlen
    rw [if_neg (by omega), List.take_of_length_le (by omega), e, ok_bind]
    simp only [if_true]
    rw [show k + p.length = m.data.length by omega] at hg
    exact ⟨_, rfl, ⟨q3, q4⟩, ⟨hg.hdr, hg.slot, hg.seq, hg.short, hg.buf, hg.own, hg.data⟩, rfl, rfl⟩
  · have := List.length_pos_iff.2 hr
    rw [if_pos (by omega), e, ok_bind]
    simp only [hr, if_false]
    refine ⟨_, rfl, ⟨q3, q4⟩, ⟨hg.hdr, hg.slot, hg.seq, hg.short, hg.buf, hg.own, hg.data⟩, q1.trans h.st, q2.trans h.has,
      ?_, by omega⟩
    show (t.ab + p.length) % 65536 = _
    rw [q5, h.ab, Nat.mod_eq_of_lt (by omega)]

/-- Operations in the middle of a message other than its packets. -/
theorem other_got {s : St} {m : Msg} {k : Nat} {op : Op} (h : Mid s m k) (hf : Fits m) (hb : between op)
    (hp : ∀ p, op ≠ .packet p) : ∃ t, step s op = .ok t ∧ Same s t ∧ Mid t m k := by
  cases op with
  | packet p => exact absurd rfl (hp p)
  | finished => exact hb.elim
  | loop e =>
    refine ⟨s, ?_, ⟨rfl, rfl⟩, h⟩
    simp [step, loop, h.has]
  | otherEnd o =>
    refine ⟨_, rfl, ⟨rfl, rfl⟩, ⟨h.hdr, h.slot, h.seq, h.short, h.buf, fun hx => ?_, h.data⟩, h.st, h.has, h.ab, h.lt⟩
    have ho : ¬ ownerCcid = o := fun e => hb e.symm
    simp [Apdu.releaseCas, Apdu.cas, h.own hx, ho]
  | other o b =>
    obtain ⟨h1, h2, h3⟩ := hb
    simp only [step]
    by_cases hx : m.mt = mXfrBlock
    · have e1 : Apdu.acquireCas s.owner o = ownerCcid := by
        simp [Apdu.acquireCas, Apdu.cas, h.own hx, Apdu.ownerNone, ownerCcid]
      have e2 : (ownerCcid == o) = false := by
        simpa using fun e : ownerCcid = o => h2 e.symm
      simp only [e1, Apdu.acquireRead, e2, Bool.false_eq_true, if_false]
      exact ⟨_, rfl, ⟨rfl, rfl⟩, ⟨h.hdr, h.slot, h.seq, h.short, h.buf, fun _ => rfl, h.data⟩, h.st, h.has, h.ab, h.lt⟩
    · have h8 : m.data.length ≤ 8 := by
        unfold Fits at hf
        rw [if_neg (show ¬ m.mt = 0x6F from hx)] at hf
        exact hf
      have hd := h.data
      rw [if_pos h8] at hd
      split
      · obtain ⟨b', e1, e2⟩ := wr_length (b := s.buf) (off := 0) (d := b) (by rw [h.buf]; omega)
        rw [e1, ok_bind]
        refine ⟨_, rfl, ⟨rfl, rfl⟩, ⟨h.hdr, h.slot, h.seq, h.short, e2.trans h.buf, fun h' => absurd h' hx, ?_⟩, h.st, h.has, h.ab, h.lt⟩
        rw [if_pos h8]
        exact hd
      · refine ⟨_, rfl, ⟨rfl, rfl⟩, ⟨h.hdr, h.slot, h.seq, h.short, h.buf, fun h' => absurd h' hx, ?_⟩, h.st, h.has, h.ab, h.lt⟩
        rw [if_pos h8]
        exact hd

theorem mem_packets {q : Bytes} {L : List Op} (hm : Op.packet q ∈ L) : q ∈ packets L := by
  induction L with
  | nil => cases hm
  | cons a L ih =>
    rcases List.mem_cons.1 hm with rfl | hm'
    · exact List.mem_cons_self
    · cases a <;> simp only [packets, List.mem_cons] <;> first | exact .inr (ih hm') | exact ih hm'

/-- The rest of a message. -/
theorem run_got : ∀ (h : List Op) {s : St} {m : Msg} {k : Nat}, Mid s m k → Fits m → (∀ op ∈ h, between op) →
    (packets h).flatten = m.data.drop k → (∃ p, h.getLast? = some (.packet p) ∧ p ≠ []) →
    ∃ t, run s h = .ok t ∧ Same s t ∧ Full t m
  | [], s, m, k, hs, _, _, hp, _ => by
    have h1 : (m.data.drop k).length = 0 := by rw [← hp]; rfl
    have h2 := hs.lt
    rw [List.length_drop] at h1
    omega
  | op :: h, s, m, k, hs, hf, hb, hp, hl => by
    have hb' : ∀ op ∈ h, between op := fun o ho => hb o (List.mem_cons_of_mem _ ho)
    by_cases hq : ∃ p, op = .packet p
    · obtain ⟨p, rfl⟩ := hq
      obtain ⟨t, e, hsame, ht⟩ := next_got hs hf (p := p) (r := (packets h).flatten) (by simpa [packets] using hp)
      rw [run]
      show ∃ t', (outEvent s p >>= fun s' => run s' h) = .ok t' ∧ _
      rw [e, ok_bind]
      by_cases hr : (packets h).flatten = []
      · rw [if_pos hr] at ht
        have : h = [] := by
          obtain ⟨q, hl1, hl2⟩ := hl
          cases h with
          | nil => rfl
          | cons o h =>
            exfalso
            rw [List.getLast?_cons_cons] at hl1
            have hm : Op.packet q ∈ (o :: h) := List.mem_of_getLast? hl1
            exact hl2 (List.flatten_eq_nil_iff.1 hr q (mem_packets hm))
        subst this
        exact ⟨t, rfl, hsame, ht⟩
      · rw [if_neg hr] at ht
        have hd : (packets h).flatten = m.data.drop (k + p.length) := by
          rw [← List.drop_drop, ← hp]
          simp [packets]
        obtain ⟨u, e2, hsame2, hu⟩ := run_got h ht hf hb' hd (by
          obtain ⟨q, hl1, hl2⟩ := hl
          refine ⟨q, ?_, hl2⟩
          cases h with
          | nil => simp [packets] at hr
          | cons o h => rwa [List.getLast?_cons_cons] at hl1)
        exact ⟨u, e2, ⟨hsame2.log.trans hsame.log, hsame2.status.trans hsame.status⟩, hu⟩
    · have hq' : ∀ p, op ≠ .packet p := fun p e => hq ⟨p, e⟩
      obtain ⟨t, e, hsame, ht⟩ := other_got hs hf (hb op List.mem_cons_self) hq'
      rw [run, e, ok_bind]
      have hp' : (packets h).flatten = m.data.drop k := by
        rw [← hp]
        cases op with
        | packet p => exact absurd rfl (hq' p)
        | _ => rfl
      obtain ⟨u, e2, hsame2, hu⟩ := run_got h ht hf hb' hp' (by
        obtain ⟨q, hl1, hl2⟩ := hl
        refine ⟨q, ?_, hl2⟩
        cases h with
        | nil =>
          simp only [List.getLast?_singleton, Option.some.injEq] at hl1
          exact absurd hl1 (hq' q)
        | cons o h => rwa [List.getLast?_cons_cons] at hl1)
      exact ⟨u, e2, ⟨hsame2.log.trans hsame.log, hsame2.status.trans hsame.status⟩, hu⟩

end Verif.Ccid
