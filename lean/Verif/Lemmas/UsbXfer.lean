import Verif.Lemmas.UsbDesc
import Verif.Base.MemMore
/-
The data stage of control transfers to the host.
-/
namespace Verif.Usb
open Verif.Spec.Usb

/-- What is behind a pointer begins with `d`. -/
def Reads (s : St) (p : Src) (d : Bytes) : Prop :=
  match p with
  | .const x => d <+: x
  | .shared => d <+: s.buf

theorem rdRange_prefix {b d : Bytes} {off k : Nat} (h : d <+: b) (hk : off + k ≤ d.length) :
    rdRange b off k = .ok ((d.drop off).take k) := by
  obtain ⟨t, rfl⟩ := h
  rw [rdRange_ok (by simp; omega), List.drop_append_of_le_length (by omega), List.take_append_of_le_length (by simp; omega)]

theorem Reads.rd {s : St} {p : Src} {d : Bytes} (h : Reads s p d) {off k : Nat} (hk : off + k ≤ d.length) :
    rdSrc s p off k = .ok ((d.drop off).take k) := by
  cases p <;> exact rdRange_prefix h hk

@[simp] theorem sent_tx (d : Bytes) (l : List Ev) : sent (.tx d :: l) = sent l ++ [d] := by simp [sent]
@[simp] theorem sent_stall (l : List Ev) : sent (.stall :: l) = sent l := by simp [sent]
@[simp] theorem sent_init (l : List Ev) : sent (.init :: l) = sent l := by simp [sent]
@[simp] theorem sent_classIn (k : Cls) (l : List Ev) : sent (.classIn k :: l) = sent l := by simp [sent]
@[simp] theorem sent_classOut (k : Cls) (l : List Ev) : sent (.classOut k :: l) = sent l := by simp [sent]
@[simp] theorem sent_rxReady (l : List Ev) : sent (.rxReady :: l) = sent l := by simp [sent]

theorem chunks_nil (n : Nat) : chunks n [] = [] := by rw [chunks, dif_pos (.inr rfl)]

theorem chunks_cons {n : Nat} {d : Bytes} (hn : 0 < n) (hd : d ≠ []) : chunks n d = d.take n :: chunks n (d.drop n) := by
  conv => lhs; rw [chunks]
  rw [dif_neg (fun h => h.elim (fun e => by omega) hd)]

/-- The packet that shows the end. -/
def zlp (n : Nat) (d : Bytes) (asked : Nat) : List Bytes := if d.length % n = 0 ∧ d.length < asked then [[]] else []

/-- A transfer with these packets still to be put into the FIFO. -/
inductive Xfer (c : Cfg) (s : St) (m : Nat) : List Bytes → Prop
  | sending (d : Bytes) (i : Nat) (he : s.e0 = .dataIn) (hp : s.pend = true) (hr : Reads s s.inSrc d) (hm : d.length ≤ m)
    (ho : s.inOff = i) (hi : i ≤ d.length) (h0 : d ≠ []) (h1 : i < d.length → s.inRem = c.mps + (d.length - i))
    (h2 : i = d.length → s.inRem ≤ c.mps) (ht : s.inTotal = d.length) :
    Xfer c s m (chunks c.mps (d.drop i) ++ zlp c.mps d s.dataLen)
  | last (he : s.e0 = .dataIn) (hp : s.pend = true) (h1 : s.inRem ≤ c.mps) (hd : s.dataLen = 0) : Xfer c s m []
  | done (he : s.e0 = .statusOut) (hp : s.pend = false) : Xfer c s m []

/-- Beside it: the buffer has its size, no data of the host is expected. -/
structure Side (s : St) : Prop where
  len : s.buf.length = 1342
  rx : ∀ p n, s.rx = some (p, n) → p = none

theorem zlp_tail {c : Cfg} {d : Bytes} {b : Nat} (h0 : d ≠ []) :
    (d.length % c.mps = 0 ∧ d.length ≥ c.mps ∧ d.length < b) ↔ (d.length % c.mps = 0 ∧ d.length < b) := by
  constructor
  · exact fun h => ⟨h.1, h.2.2⟩
  · intro h
    refine ⟨h.1, ?_, h.2⟩
    apply Nat.le_of_not_lt
    intro hl
    rw [Nat.mod_eq_of_lt hl] at h
    exact h0 (List.length_eq_zero_iff.mp h.1)

theorem taken_step {c : Cfg} {s : St} {m : Nat} {l : List Bytes} (hmps : 0 < c.mps) (hs : Side s) (hx : Xfer c s m l) :
    ∃ s', step c s .taken = .ok s' ∧ Side s' ∧ Xfer c s' m l.tail ∧ sent s'.log = sent s.log ++ l.take 1 ∧
      (l = [] → s'.e0 = .statusOut ∧ s'.pend = false) := by
  cases hx with
  | done he hp =>
    refine ⟨s, ?_, hs, .done he hp, by simp, fun _ => ⟨he, hp⟩⟩
    simp [step, hp]
  | last he hp h1 hd =>
    simp only [step, hp, if_true, dataInStage, he, ne_eq, not_true_eq_false, if_false, if_neg (Nat.not_lt.mpr h1), hd,
      Nat.not_lt_zero, and_false]
    refine ⟨_, rfl, ⟨?_, ?_⟩, .done rfl ?_, ?_, fun _ => ⟨rfl, ?_⟩⟩ <;>
      simp only [ctlReceiveStatus, prepareRx, txSent] <;> (try split) <;> (try split) <;> simp_all [hs.len]
  | sending d i he hp hr hm ho hi h0 h1 h2 ht =>
    simp only [step, hp, if_true, dataInStage, he, ne_eq, not_true_eq_false, if_false]
    by_cases hl : i < d.length
    · have hrem := h1 hl
      have hne : d.drop i ≠ [] := by
        intro h
        have := congrArg List.length h
        simp at this; omega
      rw [if_pos (by omega), chunks_cons hmps hne]
      have hrd (t : St) (hb : t.buf = s.buf) : rdSrc t s.inSrc s.inOff (min (s.inRem - c.mps) c.mps) = .ok ((d.drop i).take c.mps) := by
        have hr : Reads t s.inSrc d := by unfold Reads at hr ⊢; rw [hb]; exact hr
        rw [hr.rd (by omega), ho]
        congr 1
        by_cases hle : d.length - i ≤ c.mps
        · rw [List.take_of_length_le, List.take_of_length_le] <;> simp <;> omega
        · congr 1; omega
      simp only [transmit]
      rw [hrd { s with e0 := .dataIn, inRem := s.inRem - c.mps, pend := false } rfl]
      simp only [ok_bind, pure_eq_ok]
      refine ⟨_, rfl, ⟨hs.len, ?_⟩, ?_, ?_, ?_⟩
      · simp only [prepareRx]
        rintro p n ⟨⟩; rfl
      · simp only [List.tail_cons, List.cons_append, List.drop_drop]
        have key : i + min (s.inRem - c.mps) c.mps = min d.length (i + c.mps) := by omega
        have e : d.drop (i + c.mps) = d.drop (min d.length (i + c.mps)) := by
          by_cases hle : i + c.mps ≤ d.length
          · rw [Nat.min_eq_right hle]
          · rw [List.drop_of_length_le (by omega), List.drop_of_length_le (by omega)]
        rw [e]
        refine Xfer.sending (s := prepareRx _ none 0) d (min d.length (i + c.mps)) rfl rfl hr hm ?_ (Nat.min_le_left _ _) h0 ?_ ?_ ht
        · show s.inOff + min (s.inRem - c.mps) c.mps = _
          omega
        · intro h
          show s.inRem - c.mps = _
          omega
        · intro h
          show s.inRem - c.mps ≤ _
          omega
      · simp [prepareRx]
      · intro h; simp at h
    · have hi' : i = d.length := by omega
      subst hi'
      rw [if_neg (by have := h2 rfl; omega), List.drop_length, chunks_nil, List.nil_append]
      rw [ht]
      by_cases hz : d.length % c.mps = 0 ∧ d.length < s.dataLen
      · rw [if_pos ((zlp_tail (c := c) h0).mpr hz), zlp, if_pos hz]
        have hrd (t : St) : rdSrc t (.const []) 0 (min 0 c.mps) = .ok [] := by simp [rdSrc, rdRange]
        simp only [transmit, hrd, ok_bind, pure_eq_ok]
        refine ⟨_, rfl, ⟨hs.len, ?_⟩, .last rfl rfl (h2 rfl) rfl, ?_, ?_⟩
        · simp only [prepareRx]
          rintro p n ⟨⟩; rfl
        · simp [prepareRx]
        · intro h; simp at h
      · rw [if_neg (fun h => hz ((zlp_tail (c := c) h0).mp h)), zlp, if_neg hz]
        refine ⟨_, rfl, ⟨?_, ?_⟩, .done rfl ?_, ?_, fun _ => ⟨rfl, ?_⟩⟩ <;>
          simp only [ctlReceiveStatus, prepareRx, txSent] <;> (try split) <;> (try split) <;> simp_all [hs.len]

/-- Nothing the transfer depends on has changed. -/
theorem Xfer.congr {c : Cfg} {s t : St} {m : Nat} {l : List Bytes} (hx : Xfer c s m l) (he : t.e0 = s.e0) (hp : t.pend = s.pend)
    (hi : t.inSrc = s.inSrc) (ho : t.inOff = s.inOff) (hr : t.inRem = s.inRem) (ht : t.inTotal = s.inTotal)
    (hd : t.dataLen = s.dataLen) (hb : t.buf.take m = s.buf.take m) : Xfer c t m l := by
  cases hx with
  | done h1 h2 => exact .done (he.trans h1) (hp.trans h2)
  | last h1 h2 h3 h4 => exact .last (he.trans h1) (hp.trans h2) (by rw [hr]; exact h3) (hd.trans h4)
  | sending d i h1 h2 h3 h4 h5 h6 h7 h8 h9 h10 =>
    rw [← hd]
    refine .sending d i (he.trans h1) (hp.trans h2) ?_ h4 (ho.trans h5) h6 h7 (by rw [hr]; exact h8) (by rw [hr]; exact h9) (ht.trans h10)
    rw [hi]
    revert h3
    cases s.inSrc with
    | const x => exact id
    | shared =>
      simp only [Reads]
      intro h
      obtain ⟨r, hr⟩ := h
      have : d <+: t.buf.take m := by
        rw [hb, ← hr, List.take_append, List.take_of_length_le h4]
        exact List.prefix_append _ _
      exact this.trans (List.take_prefix _ _)

theorem calm_step {c : Cfg} {s : St} {m : Nat} {l : List Bytes} {op : Op} (hs : Side s) (hx : Xfer c s m l) (hc : Calm m op) (ht : op ≠ .taken) :
    ∃ s', step c s op = .ok s' ∧ Side s' ∧ Xfer c s' m l ∧ sent s'.log = sent s.log ∧ s'.e0 = s.e0 ∧ s'.pend = s.pend := by
  cases op with
  | setup p t => exact hc.elim
  | taken => exact (ht rfl).elim
  | reset => exact hc.elim
  | webDone r => exact hc.elim
  | out d =>
    simp only [step, dataOutStage]
    rcases hrx : s.rx with _ | ⟨p, n⟩
    · exact ⟨s, rfl, hs, hx, rfl, rfl, rfl⟩
    · have hp := hs.rx p n hrx
      subst hp
      have he : s.e0 ≠ .dataOut := by
        cases hx with
        | sending _ _ he => rw [he]; decide
        | last he => rw [he]; decide
        | done he => rw [he]; decide
      simp only [pure_eq_ok, ok_bind]
      rw [if_pos he]
      refine ⟨_, rfl, ⟨hs.len, by simp⟩, hx.congr rfl rfl rfl rfl rfl rfl rfl rfl, rfl, rfl, rfl⟩
  | epIn n =>
    simp only [step]
    split
    · split
      · exact ⟨_, rfl, ⟨hs.len, hs.rx⟩, hx.congr rfl rfl rfl rfl rfl rfl rfl rfl, by simp, rfl, rfl⟩
      · exact ⟨_, rfl, hs, hx, rfl, rfl, rfl⟩
    · exact ⟨_, rfl, hs, hx, rfl, rfl, rfl⟩
  | epOut n =>
    simp only [step]
    split
    · split
      · exact ⟨_, rfl, ⟨hs.len, hs.rx⟩, hx.congr rfl rfl rfl rfl rfl rfl rfl rfl, by simp, rfl, rfl⟩
      · exact ⟨_, rfl, hs, hx, rfl, rfl, rfl⟩
    · exact ⟨_, rfl, hs, hx, rfl, rfl, rfl⟩
  | suspend => exact ⟨_, rfl, ⟨hs.len, hs.rx⟩, hx.congr rfl rfl rfl rfl rfl rfl rfl rfl, rfl, rfl, rfl⟩
  | resume => exact ⟨_, rfl, ⟨hs.len, hs.rx⟩, hx.congr rfl rfl rfl rfl rfl rfl rfl rfl, rfl, rfl, rfl⟩
  | disconnect => exact ⟨_, rfl, ⟨hs.len, hs.rx⟩, hx.congr rfl rfl rfl rfl rfl rfl rfl rfl, rfl, rfl, rfl⟩
  | acquire o => exact ⟨_, rfl, ⟨hs.len, hs.rx⟩, hx.congr rfl rfl rfl rfl rfl rfl rfl rfl, rfl, rfl, rfl⟩
  | release o => exact ⟨_, rfl, ⟨hs.len, hs.rx⟩, hx.congr rfl rfl rfl rfl rfl rfl rfl rfl, rfl, rfl, rfl⟩
  | webTimeout t =>
    simp only [step]
    split
    · exact ⟨_, rfl, ⟨hs.len, hs.rx⟩, hx.congr rfl rfl rfl rfl rfl rfl rfl rfl, rfl, rfl, rfl⟩
    · exact ⟨_, rfl, hs, hx, rfl, rfl, rfl⟩
  | write off d =>
    have hb : off + d.length ≤ s.buf.length := by rw [hs.len]; exact hc.2
    simp only [step, wrRange_ok hb, ok_bind, pure_eq_ok]
    refine ⟨_, rfl, ⟨?_, hs.rx⟩, hx.congr rfl rfl rfl rfl rfl rfl rfl ?_, rfl, rfl, rfl⟩
    · simp only [List.length_append, List.length_take, List.length_drop, hs.len]
      rw [hs.len] at hb; omega
    · show (s.buf.take off ++ d ++ s.buf.drop (off + d.length)).take m = _
      rw [List.append_assoc, List.take_append_of_le_length (by have := hc.1; simp; omega), List.take_take, Nat.min_eq_left hc.1]

theorem run_xfer {c : Cfg} (hmps : 0 < c.mps) {m : Nat} (h : List Op) : ∀ {s : St} {l : List Bytes}, Side s → Xfer c s m l →
    (∀ op ∈ h, Calm m op) →
    ∃ s', run c s h = .ok s' ∧ sent s'.log = sent s.log ++ l.take (taken h) ∧
      (l.length < taken h → s'.e0 = .statusOut ∧ s'.pend = false) := by
  induction h with
  | nil => intro s l _ _ _; exact ⟨s, rfl, by simp [taken], by simp [taken]⟩
  | cons op h ih =>
    intro s l hs hx hc
    by_cases ht : op = .taken
    · subst ht
      obtain ⟨t, e, hs', hx', hl, hd⟩ := taken_step hmps hs hx
      obtain ⟨u, e', hl', hd'⟩ := ih hs' hx' fun o ho => hc o (List.mem_cons_of_mem _ ho)
      have hcount : taken (.taken :: h) = taken h + 1 := by simp [taken]
      refine ⟨u, by simp [run, e, e'], ?_, ?_⟩
      · rw [hl', hl, hcount]
        cases l <;> simp
      · rw [hcount]
        intro hlt
        by_cases hlt' : l.tail.length < taken h
        · exact hd' hlt'
        · -- nothing was left to send, and nothing is taken any more
          have h0 : l = [] := by
            cases l with
            | nil => rfl
            | cons a l => simp at hlt hlt'; omega
          subst h0
          have h1 : taken h = 0 := by simp at hlt'; omega
          have := hd rfl
          revert hx' e'
          obtain ⟨he0, hpd⟩ := this
          have hno : ∀ o ∈ h, o ≠ .taken := by
            intro o ho heq
            subst heq
            have : 0 < taken h := List.countP_pos_iff.mpr ⟨_, ho, by simp⟩
            omega
          clear ih hl' hd' hl hd e hx hs
          have hcc : ∀ o ∈ h, Calm m o := fun o ho => hc o (List.mem_cons_of_mem _ ho)
          clear hc hlt hcount hlt' h1
          intro e' hx'
          induction h generalizing t with
          | nil => cases e'; exact ⟨he0, hpd⟩
          | cons o h ih =>
            obtain ⟨v, ev, hsv, hxv, _, h1, h2⟩ := calm_step hs' hx' (hcc o List.mem_cons_self) (hno o List.mem_cons_self)
            simp only [run, ev, ok_bind] at e'
            exact ih v hsv (h1.trans he0) (h2.trans hpd) (fun o ho => hno o (List.mem_cons_of_mem _ ho))
              (fun o ho => hcc o (List.mem_cons_of_mem _ ho)) e' hxv
    · obtain ⟨t, e, hs', hx', hl, _, _⟩ := calm_step hs hx (hc op List.mem_cons_self) ht
      obtain ⟨u, e', hl', hd'⟩ := ih hs' hx' fun o ho => hc o (List.mem_cons_of_mem _ ho)
      have hcount : taken (op :: h) = taken h := by simp [taken, ht]
      exact ⟨u, by simp [run, e, e'], by rw [hl', hl, hcount], by rw [hcount]; exact hd'⟩

/-- A transfer begins. -/
theorem xfer_start {c : Cfg} {s : St} {p : Src} {d : Bytes} (hmps : 0 < c.mps) (h0 : d ≠ []) (hs : Side s) (hr : Reads s p d) :
    ∃ s', ctlSendData c s p d.length = .ok s' ∧ Side s' ∧ sent s'.log = sent s.log ++ (packets c.mps d s.dataLen).take 1 ∧
      Xfer c s' d.length (packets c.mps d s.dataLen).tail ∧ s'.buf = s.buf := by
  have hpos : 0 < d.length := List.length_pos_iff.mpr h0
  have hrd : rdSrc { s with e0 := .dataIn, inTotal := d.length, inRem := d.length } p 0 (min d.length c.mps) = .ok (d.take c.mps) := by
    have : Reads { s with e0 := .dataIn, inTotal := d.length, inRem := d.length } p d := hr
    rw [this.rd (by omega), List.drop_zero]
    congr 1
    by_cases hle : d.length ≤ c.mps
    · rw [List.take_of_length_le (by omega), List.take_of_length_le (by omega)]
    · congr 1; omega
  simp only [ctlSendData, transmit, hrd, ok_bind, pure_eq_ok]
  refine ⟨_, rfl, ⟨hs.len, hs.rx⟩, ?_, ?_, rfl⟩
  · simp [packets, chunks_cons hmps h0]
  · have e : (packets c.mps d s.dataLen).tail = chunks c.mps (d.drop (min d.length c.mps)) ++ zlp c.mps d s.dataLen := by
      rw [packets, chunks_cons hmps h0, zlp]
      simp only [List.cons_append, List.tail_cons]
      congr 2
      by_cases hle : c.mps ≤ d.length
      · rw [Nat.min_eq_right hle]
      · rw [List.drop_of_length_le (by omega), List.drop_of_length_le (by omega)]
    rw [e]
    refine Xfer.sending (s := { s with e0 := .dataIn, inTotal := d.length, inRem := d.length, pend := true, inSrc := p, inOff := 0 + min d.length c.mps, log := _ })
      d (min d.length c.mps) rfl rfl hr (Nat.le_refl _) (by simp) (Nat.min_le_left _ _) h0 ?_ ?_ rfl
    · intro h
      show d.length = _
      omega
    · intro h
      show d.length ≤ _
      omega

end Verif.Usb
