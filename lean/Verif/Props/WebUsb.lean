import Verif.Spec.WebUsb
import Verif.Base.MemMore
import Verif.Props.Apdu
/-
C50: exchanges over WebUSB.
-/
namespace Verif.WebUsb
open Verif.Spec.WebUsb

/-- Where the exchange is, according to the variables. -/
inductive At (s : St) : Phase → Prop
  | free (h : s.st = .idle ∨ s.st = .hold ∨ s.st = .sent) : At s .free
  | announced (h : s.st = .recving) (hs : s.size ≤ 1340) : At s (.announced s.size)
  | got (d : Bytes) (h : s.st = .process) (hs : s.size ≤ 1340) (hd : d.length ≤ s.size) (hb : s.buf.take d.length = d) :
    At s (.got s.size d)
  | answered (r : Bytes) (h : s.st = .sending) (hs : s.size = r.length) (hr : r.length ≤ 1342)
    (hb : s.buf.take r.length = r) : At s (.answered r)

structure Inv (s : St) (p : Phase) : Prop where
  buf : s.buf.length = 1342
  ep0 : s.ep0 = true → s.st = .recving
  own : s.st ≠ .idle → s.owner = ownerWeb
  atp : At s p
  log : Exchanges s.log p

theorem init_inv : Inv St.init .free :=
  ⟨List.length_replicate, fun h => (nomatch h), fun h => absurd rfl h, .free (Or.inl rfl), .nil⟩

theorem At.free_of {s : St} {p : Phase} (h : At s p) (hs : s.st = .idle ∨ s.st = .hold ∨ s.st = .sent) : p = .free := by
  cases h with
  | free h => rfl
  | announced h => rw [h] at hs; simp at hs
  | got d h => rw [h] at hs; simp at hs
  | answered r h => rw [h] at hs; simp at hs

theorem own_other {cur o : Nat} (h : cur = ownerWeb) (ho : o ≠ ownerWeb) :
    Apdu.acquireCas cur o = ownerWeb ∧ Apdu.acquireRead (Apdu.acquireCas cur o) o = false ∧
    Apdu.releaseCas cur o = ownerWeb := by
  subst h
  refine ⟨rfl, ?_, ?_⟩
  · show (ownerWeb == o) = false
    simpa using fun h => ho h.symm
  · show (if ownerWeb = o then _ else _) = _
    rw [if_neg (fun h => ho h.symm)]

/-- A change of fields that the phase does not depend on. -/
theorem Inv.same {s t : St} {p : Phase} (h : Inv s p) (h1 : t.st = s.st) (h2 : t.size = s.size) (h3 : t.buf = s.buf)
    (h4 : t.ep0 = true → s.ep0 = true) (h5 : t.owner = s.owner) (h6 : Exchanges t.log p) : Inv t p := by
  refine ⟨by rw [h3]; exact h.buf, fun hq => by rw [h1]; exact h.ep0 (h4 hq), fun hq => by rw [h5]; exact h.own (h1 ▸ hq), ?_, h6⟩
  cases h.atp with
  | free hh => exact .free (h1.symm ▸ hh)
  | announced hh hs =>
    rw [← h2] at hs ⊢
    exact .announced (h1.trans hh) hs
  | got d hh hs hd hb =>
    rw [← h2] at hs hd ⊢
    exact .got d (h1.trans hh) hs hd (by rw [h3]; exact hb)
  | answered r hh hs hr hb => exact .answered r (h1.trans hh) (h2.trans hs) hr (by rw [h3]; exact hb)

theorem refuse_inv {s : St} {p : Phase} (h : Inv s p) (k : Nat) : Inv (refuse { s with keep := k, ep0 := false }) p :=
  h.same rfl rfl rfl (fun h => (nomatch h)) rfl (.cons h.log .refuse)

/-- One interrupt. -/
theorem irq_inv {s : St} {p : Phase} {i : Irq} (h : Inv s p) (hi : polite i) :
    ∃ t q, irq s i = .ok t ∧ Inv t q ∧ (s.st = .process → i ≠ .reset → t.st = .process ∧ q = p ∧ t.size = s.size ∧ t.buf = s.buf) := by
  cases i with
  | cmd n tick =>
    simp only [irq]
    by_cases c : s.st ≠ .idle ∧ s.st ≠ .hold
    · rw [if_pos c]
      exact ⟨_, p, rfl, refuse_inv h tick, fun h1 _ => ⟨h1, rfl, rfl, rfl⟩⟩
    · rw [if_neg c]
      have hst : s.st = .idle ∨ s.st = .hold := by
        by_cases c1 : s.st = .idle
        · exact Or.inl c1
        · exact Or.inr (Classical.not_not.1 fun c2 => c ⟨c1, c2⟩)
      have hp : p = .free := h.atp.free_of (by rcases hst with h | h <;> simp [h])
      have hnp : s.st ≠ .process := by rcases hst with h | h <;> rw [h] <;> decide
      subst hp
      by_cases c2 : (!Apdu.acquireRead (Apdu.acquireCas s.owner ownerWeb) ownerWeb) = true
      · rw [if_pos c2]
        refine ⟨_, .free, rfl, ⟨h.buf, fun hq => (nomatch hq), ?_, .free ?_, .cons h.log .refuse⟩, fun hq => absurd hq hnp⟩
        · intro hq
          have := h.own hq
          have ho : (Apdu.acquireRead (Apdu.acquireCas s.owner ownerWeb) ownerWeb) = true := by rw [this]; rfl
          rw [ho] at c2
          exact nomatch c2
        · show s.st = _ ∨ s.st = _ ∨ s.st = _
          rcases hst with h | h <;> simp [h]
      · rw [if_neg c2]
        have ho : Apdu.acquireCas s.owner ownerWeb = ownerWeb := by
          have : Apdu.acquireRead (Apdu.acquireCas s.owner ownerWeb) ownerWeb = true := by simpa using c2
          simpa [Apdu.acquireRead] using this
        by_cases c3 : n > 1340
        · rw [if_pos c3]
          exact ⟨_, .free, rfl, ⟨h.buf, fun hq => (nomatch hq), fun _ => ho, .free (Or.inr (Or.inl rfl)), .cons h.log .refuse⟩,
            fun hq => absurd hq hnp⟩
        · rw [if_neg c3]
          exact ⟨_, .announced n, rfl, ⟨h.buf, fun _ => rfl, fun _ => ho, .announced rfl (by show n ≤ 1340; omega),
            .cons h.log .accept⟩, fun hq => absurd hq hnp⟩
  | resp n tick =>
    simp only [irq]
    by_cases c : s.st = .sending
    · rw [if_pos c]
      cases h.atp with
      | free hh => rw [c] at hh; simp at hh
      | announced hh => rw [c] at hh; cases hh
      | got d hh => rw [c] at hh; cases hh
      | answered r hh hs hr hb =>
        have hb2 := h.buf
        rw [rdRange_ok (by show 0 + min s.size n ≤ s.buf.length; omega)]
        simp only [ok_bind, pure_eq_ok, List.drop_zero]
        have : s.buf.take (min s.size n) = r.take n := by
          rw [hs, ← hb, List.take_take, List.length_take]
          congr 1
          omega
        rw [this]
        exact ⟨_, .free, rfl, ⟨h.buf, fun hq => (nomatch hq), fun _ => h.own (by rw [c]; decide), .free (Or.inr (Or.inr rfl)),
          .cons h.log (.give n)⟩, fun hq => by rw [c] at hq; cases hq⟩
    · rw [if_neg c]
      exact ⟨_, p, rfl, refuse_inv h tick, fun h1 _ => ⟨h1, rfl, rfl, rfl⟩⟩
  | stat tick =>
    exact ⟨_, p, rfl, h.same rfl rfl rfl (fun h => (nomatch h)) rfl h.log, fun h1 _ => ⟨h1, rfl, rfl, rfl⟩⟩
  | bad tick => exact ⟨_, p, rfl, refuse_inv h tick, fun h1 _ => ⟨h1, rfl, rfl, rfl⟩⟩
  | desc d => exact absurd hi (fun h => h)
  | data d =>
    simp only [irq]
    by_cases c : s.ep0 = true
    · rw [if_pos c]
      have hst := h.ep0 c
      cases h.atp with
      | free hh => rw [hst] at hh; simp at hh
      | got d hh => rw [hst] at hh; cases hh
      | answered r hh => rw [hst] at hh; cases hh
      | announced hh hs =>
        have hl : (d.take s.size).length ≤ s.size := by simp only [List.length_take]; omega
        obtain ⟨b, h1, h2, h3⟩ := wr_take (b := s.buf) (d := d.take s.size) (off := 0) (by rw [h.buf]; omega)
        simp only [Nat.zero_add, List.take_zero, List.nil_append] at h3
        simp only [h1, ok_bind, pure_eq_ok]
        exact ⟨_, .got s.size (d.take s.size), rfl, ⟨by show b.length = _; rw [h2]; exact h.buf, fun hq => (nomatch hq),
          fun _ => h.own (by rw [hst]; decide), .got _ rfl hs hl h3, .cons h.log (.receive hl)⟩,
          fun hq => by rw [hst] at hq; cases hq⟩
    · rw [if_neg c]
      exact ⟨s, p, rfl, h, fun h1 _ => ⟨h1, rfl, rfl, rfl⟩⟩
  | txSent =>
    simp only [irq]
    by_cases c : s.st = .sent
    · rw [if_pos c]
      have hp : p = .free := h.atp.free_of (Or.inr (Or.inr c))
      subst hp
      exact ⟨_, .free, rfl, ⟨h.buf, fun hq => by have := h.ep0 hq; (rw [c] at this; cases this),
        fun _ => h.own (by rw [c]; decide), .free (Or.inr (Or.inl rfl)), h.log⟩, fun hq => by rw [c] at hq; cases hq⟩
    · rw [if_neg c]
      exact ⟨s, p, rfl, h, fun h1 _ => ⟨h1, rfl, rfl, rfl⟩⟩
  | other o b =>
    obtain ⟨ho, hno, hb⟩ := hi
    simp only [irq]
    by_cases c : s.st = .idle
    · have hp : p = .free := h.atp.free_of (Or.inl c)
      subst hp
      have hnr : s.ep0 ≠ true := fun hq => by have := h.ep0 hq; rw [c] at this; cases this
      obtain ⟨b', h1, h2⟩ := wr_length (b := s.buf) (d := b) (off := 0) (by rw [h.buf]; omega)
      split
      · rw [h1]
        exact ⟨_, .free, rfl, ⟨by show b'.length = _; rw [h2]; exact h.buf, fun hq => absurd hq hnr, fun hq => absurd c hq,
          .free (Or.inl c), h.log⟩, fun hq => by rw [c] at hq; cases hq⟩
      · exact ⟨_, .free, rfl, ⟨h.buf, fun hq => absurd hq hnr, fun hq => absurd c hq, .free (Or.inl c), h.log⟩,
          fun hq => by rw [c] at hq; cases hq⟩
    · obtain ⟨k1, k2, -⟩ := own_other (h.own c) ho
      rw [k2]
      simp only [Bool.false_eq_true, if_false, k1]
      exact ⟨_, p, rfl, h.same rfl rfl rfl id (h.own c).symm h.log, fun h1 _ => ⟨h1, rfl, rfl, rfl⟩⟩
  | otherEnd o =>
    simp only [irq]
    by_cases c : s.st = .idle
    · have hp : p = .free := h.atp.free_of (Or.inl c)
      subst hp
      exact ⟨_, .free, rfl, ⟨h.buf, h.ep0, fun hq => absurd c hq, .free (Or.inl c), h.log⟩, fun hq => by rw [c] at hq; cases hq⟩
    · rw [(own_other (h.own c) hi).2.2]
      exact ⟨_, p, rfl, h.same rfl rfl rfl id (h.own c).symm h.log, fun h1 _ => ⟨h1, rfl, rfl, rfl⟩⟩
  | reset =>
    exact ⟨_, .free, rfl, ⟨h.buf, fun hq => (nomatch hq), fun hq => absurd rfl hq, .free (Or.inl rfl), .cons h.log .reset⟩,
      fun _ hq => absurd rfl hq⟩

theorem irqs_process {s : St} {p : Phase} (l : List Irq) : Inv s p → s.st = .process → (∀ i ∈ l, polite i ∧ i ≠ .reset) →
    ∃ t, irqs s l = .ok t ∧ Inv t p ∧ t.st = .process ∧ t.size = s.size ∧ t.buf = s.buf := by
  induction l generalizing s with
  | nil => intro h hs _; exact ⟨s, rfl, h, hs, rfl, rfl⟩
  | cons i l ih =>
    intro h hs hi
    obtain ⟨h1, h2⟩ := hi i (by simp)
    obtain ⟨t, q, h3, h4, h5⟩ := irq_inv h h1
    obtain ⟨k1, k2, k3, k4⟩ := h5 hs h2
    subst k2
    obtain ⟨u, j1, j2, j3, j4, j5⟩ := ih h4 k1 (fun j hj => hi j (by simp [hj]))
    exact ⟨u, by rw [irqs, h3]; exact j1, j2, j3, j4.trans k3, j5.trans k4⟩

/-- One turn of the main loop. -/
theorem loop_inv {s : St} {p : Phase} {e : Env} (h : Inv s p) (h1 : e.a1 = []) (h2 : ∀ i ∈ e.a2, polite i ∧ i ≠ .reset)
    (h3 : e.resp.length ≤ 1340) : ∃ t q, loop s e = .ok t ∧ Inv t q := by
  by_cases c : (e.tick + 4294967296 - s.keep) % 4294967296 > 2000 ∧ s.st = .hold
  · have ht : timeout s e = .ok { s with owner := Apdu.releaseCas s.owner ownerWeb, st := .idle } := by
      unfold timeout
      rw [if_pos c, h1]
      rfl
    have hp : p = .free := h.atp.free_of (Or.inr (Or.inl c.2))
    subst hp
    refine ⟨{ s with owner := Apdu.releaseCas s.owner ownerWeb, st := .idle }, .free, ?_,
      ⟨h.buf, fun hq => ?_, fun hq => absurd rfl hq, .free (Or.inl rfl), h.log⟩⟩
    · unfold loop
      rw [ht]
      rfl
    · have := h.ep0 hq
      rw [c.2] at this
      cases this
  · have ht : timeout s e = .ok s := by
      unfold timeout
      rw [if_neg c]
    unfold loop
    rw [ht, ok_bind]
    by_cases cp : s.st = .process
    case neg => exact ⟨s, p, by rw [if_pos cp]; rfl, h⟩
    case pos =>
      rw [if_neg (fun hq => hq cp)]
      cases hat : h.atp with
      | free hh => rw [cp] at hh; simp at hh
      | announced hh => rw [cp] at hh; cases hh
      | answered r hh => rw [cp] at hh; cases hh
      | got d hh hs hd hb =>
        have hlen := h.buf
        have he : ¬ s.ep0 = true := fun hq => by have := h.ep0 hq; rw [cp] at this; cases this
        rw [rdRange_ok (by omega), ok_bind, List.drop_zero]
        generalize hcmd : s.buf.take s.size = cmd
        have hcl : cmd.length = s.size := by rw [← hcmd, List.length_take]; omega
        have hpre : d <+: cmd := by
          rw [← hb, ← hcmd]
          exact List.take_prefix_take_left hd
        obtain ⟨rr, hrr⟩ := Apdu.C05_never_oob cmd
        rw [hrr, ok_bind]
        cases rr with
        | none =>
          obtain ⟨r, hr⟩ : ∃ r : Bytes, r = [0x67, 0x00] := ⟨_, rfl⟩
          have hrl : r.length = 2 := by rw [hr]; rfl
          simp only [← hr]
          obtain ⟨b, j1, j2, j3⟩ := wr_take (b := s.buf) (d := r) (off := 0) (by rw [h.buf]; omega)
          simp only [Nat.zero_add, List.take_zero, List.nil_append] at j3
          rw [j1]
          exact ⟨_, .answered r, rfl, ⟨by show b.length = _; rw [j2]; exact hlen, fun hq => absurd hq he, fun _ => h.own (by rw [cp]; decide),
            .answered r rfl hrl.symm (by omega) j3, .cons h.log (.process hcl hpre (Or.inr hr))⟩⟩
        | some cc =>
          obtain ⟨t, k1, k2, k3, k4, k5⟩ := irqs_process e.a2 h cp h2
          have he2 : ¬ t.ep0 = true := fun hq => by have := k2.ep0 hq; rw [k3] at this; cases this
          simp only [k1, ok_bind]
          have hrl : (e.resp ++ [e.sw1, e.sw2]).length = e.resp.length + 2 := by simp
          obtain ⟨b, j1, j2, j3⟩ := wr_take (b := t.buf) (d := e.resp ++ [e.sw1, e.sw2]) (off := 0)
            (by rw [k2.buf, hrl]; omega)
          simp only [Nat.zero_add, List.take_zero, List.nil_append] at j3
          rw [j1]
          exact ⟨_, .answered (e.resp ++ [e.sw1, e.sw2]), rfl, ⟨by show b.length = _; rw [j2]; exact k2.buf, fun hq => absurd hq he2, fun _ => k2.own (by rw [k3]; decide),
            .answered _ rfl hrl.symm (by omega) j3,
            .cons k2.log (.process hcl hpre (Or.inl ⟨_, _, _, _, _, _, (Apdu.C05_decode_iff _ _).1 hrr⟩))⟩⟩

theorem step_inv {s : St} {p : Phase} {op : Op} (h : Inv s p) (ho : politeOp op) : ∃ t q, step s op = .ok t ∧ Inv t q := by
  cases op with
  | irq i =>
    obtain ⟨t, q, h1, h2, -⟩ := irq_inv h ho
    exact ⟨t, q, h1, h2⟩
  | loop e => exact loop_inv h ho.1 ho.2.1 ho.2.2

theorem run_inv : ∀ (l : List Op) {s : St} {p : Phase}, Inv s p → (∀ op ∈ l, politeOp op) →
    ∃ t q, run s l = .ok t ∧ Inv t q
  | [], s, p, h, _ => ⟨s, p, rfl, h⟩
  | op :: l, s, p, h, ho => by
    obtain ⟨t, q, h1, h2⟩ := step_inv h (ho op (by simp))
    obtain ⟨u, r, h3, h4⟩ := run_inv l h2 (fun o hq => ho o (by simp [hq]))
    exact ⟨u, r, by rw [run, h1]; exact h3, h4⟩

/-- C50: whatever requests, transfers, turns of the main loop and requests of other interfaces happen, in any order, what
happens on WebUSB is a sequence of exchanges: a command is announced, its data arrives, it is processed once, its
response is given out once. There is no access outside the buffer.

Missing: requests for descriptors (`C50_refuted`), a request at the moment of the timeout (`C50_refuted_race`),
configuration of the device while a command is executed (`C50_refuted_reset`). -/
theorem C50_exchange_partial (h : List Op) (hp : ∀ op ∈ h, politeOp op) :
    ∃ t p, run St.init h = .ok t ∧ Exchanges t.log p := by
  obtain ⟨t, q, h1, h2⟩ := run_inv h init_inv hp
  exact ⟨t, q, h1, h2.log⟩

theorem irq_owner {s t : St} {i : Irq} (hi : polite i) (h : irq s i = .ok t) (ho : s.owner = ownerWeb) :
    t.owner = ownerWeb := by
  cases i with
  | cmd n tick =>
    have ha : Apdu.acquireCas s.owner ownerWeb = ownerWeb := by rw [ho]; rfl
    simp only [irq] at h
    repeat' split at h
    all_goals (cases h; first | exact ho | exact ha)
  | resp n tick =>
    simp only [irq] at h
    split at h
    · cases hr : rdRange s.buf 0 (min s.size n) with
      | error x => rw [hr] at h; cases h
      | ok d => rw [hr] at h; cases h; exact ho
    · cases h; exact ho
  | stat tick => cases h; exact ho
  | bad tick => cases h; exact ho
  | desc d => exact absurd hi (fun h => h)
  | data d =>
    simp only [irq] at h
    split at h
    · cases hr : wrRange s.buf 0 (d.take s.size) with
      | error x => rw [hr] at h; cases h
      | ok b => rw [hr] at h; cases h; exact ho
    · cases h; exact ho
  | txSent =>
    simp only [irq] at h
    cases h
    split
    · exact ho
    · exact ho
  | other o b =>
    obtain ⟨k1, k2, -⟩ := own_other ho hi.1
    simp only [irq, k2, Bool.false_eq_true, if_false] at h
    cases h
    exact k1
  | otherEnd o =>
    simp only [irq] at h
    cases h
    exact (own_other ho hi).2.2
  | reset => cases h; exact ho

theorem irqs_owner (l : List Irq) : ∀ {s t : St}, (∀ i ∈ l, polite i) → irqs s l = .ok t → s.owner = ownerWeb →
    t.owner = ownerWeb := by
  induction l with
  | nil => intro s t _ h ho; cases h; exact ho
  | cons i l ih =>
    intro s t hi h ho
    rw [irqs] at h
    cases hu : irq s i with
    | error x => rw [hu] at h; cases h
    | ok u =>
      rw [hu] at h
      exact ih (fun j hj => hi j (by simp [hj])) h (irq_owner (hi i (by simp)) hu ho)

/-- `keep` is the time of the last request. -/
theorem irq_keep {s t : St} {i : Irq} (h : irq s i = .ok t) : t.keep = timeOf s.keep i := by
  cases i with
  | cmd n tick =>
    simp only [irq] at h
    repeat' split at h
    all_goals (cases h; rfl)
  | resp n tick =>
    simp only [irq] at h
    split at h
    · cases hr : rdRange s.buf 0 (min s.size n) with
      | error x => rw [hr] at h; cases h
      | ok d => rw [hr] at h; cases h; rfl
    · cases h; rfl
  | stat tick => cases h; rfl
  | bad tick => cases h; rfl
  | desc d =>
    simp only [irq] at h
    cases hr : wrRange s.buf 0 d with
    | error x => rw [hr] at h; cases h
    | ok b => rw [hr] at h; cases h; rfl
  | data d =>
    simp only [irq] at h
    split at h
    · cases hr : wrRange s.buf 0 (d.take s.size) with
      | error x => rw [hr] at h; cases h
      | ok b => rw [hr] at h; cases h; rfl
    · cases h; rfl
  | txSent =>
    simp only [irq] at h
    cases h
    split <;> rfl
  | other o b =>
    simp only [irq] at h
    split at h
    · cases hr : wrRange s.buf 0 b with
      | error x => rw [hr] at h; cases h
      | ok b => rw [hr] at h; cases h; rfl
    · cases h; rfl
  | otherEnd o => cases h; rfl
  | reset => cases h; rfl

/-- C50: while an exchange is in progress WebUSB holds the buffer. It gives the buffer back only in a turn of the main
loop, when no exchange is in progress and the last request (`irq_keep`) was more than two seconds ago.

Missing: as for `C50_exchange_partial`. -/
theorem C50_held_partial {h : List Op} {s : St} (hp : ∀ op ∈ h, politeOp op) (hr : run St.init h = .ok s) :
    ∃ p, Exchanges s.log p ∧ (p ≠ .free → s.owner = ownerWeb) ∧
      ∀ op t, politeOp op → step s op = .ok t → s.owner = ownerWeb → t.owner ≠ ownerWeb →
        p = .free ∧ ∃ e, op = .loop e ∧ (e.tick + 4294967296 - s.keep) % 4294967296 > 2000 := by
  obtain ⟨s', p, h1, hi⟩ := run_inv h init_inv hp
  rw [hr] at h1
  cases h1
  refine ⟨p, hi.log, fun hn => hi.own fun hs => hn (hi.atp.free_of (Or.inl hs)), ?_⟩
  intro op t ho hs hw hnw
  cases op with
  | irq i => exact absurd (irq_owner ho hs hw) hnw
  | loop e =>
    obtain ⟨a1, a2, a3⟩ := ho
    by_cases c : (e.tick + 4294967296 - s.keep) % 4294967296 > 2000 ∧ s.st = .hold
    · exact ⟨hi.atp.free_of (Or.inr (Or.inl c.2)), e, rfl, c.1⟩
    · exfalso
      apply hnw
      have ht : timeout s e = .ok s := by
        unfold timeout
        rw [if_neg c]
      have hs' : loop s e = .ok t := hs
      unfold loop at hs'
      rw [ht, ok_bind] at hs'
      by_cases cp : s.st = .process
      case neg =>
        rw [if_pos cp] at hs'
        cases hs'
        exact hw
      case pos =>
        rw [if_neg (fun hq => hq cp)] at hs'
        cases hrd : rdRange s.buf 0 s.size with
        | error x => rw [hrd] at hs'; cases hs'
        | ok cmd =>
          rw [hrd, ok_bind] at hs'
          cases hbc : Apdu.buildCapdu cmd with
          | error x => rw [hbc] at hs'; cases hs'
          | ok rr =>
            rw [hbc, ok_bind] at hs'
            cases rr with
            | none =>
              simp only at hs'
              cases hwr : wrRange s.buf 0 [0x67, 0x00] with
              | error x => rw [hwr] at hs'; cases hs'
              | ok b => rw [hwr] at hs'; cases hs'; exact hw
            | some cc =>
              simp only at hs'
              cases hir : irqs s e.a2 with
              | error x => rw [hir] at hs'; cases hs'
              | ok u =>
                rw [hir, ok_bind] at hs'
                have hu := irqs_owner e.a2 (fun i hi => (a2 i hi).1) hir hw
                cases hwr : wrRange u.buf 0 (e.resp ++ [e.sw1, e.sw2]) with
                | error x => rw [hwr] at hs'; cases hs'
                | ok b => rw [hwr] at hs'; cases hs'; exact hu

end Verif.WebUsb
