import Verif.Props.Nfc
/-
C49: the NFC interface and its buffer.
-/
namespace Verif.Nfc
open Verif.Spec.Nfc

/-- What holds between turns; `n` bounds the bytes of the chain that is being received. -/
structure Inv (s : St) (n : Nat) : Prop where
  hung : s.hung = false
  buf : s.buf.length = 1342
  rxb : s.rx.length = 32
  size : s.rxSize ≤ n
  small : s.rxSize ≤ 1340
  send : Ev.error ∉ s.log → s.sent ≤ s.txSize ∧ s.txSize ≤ 1342 ∧ s.last ≤ s.sent

theorem init_inv : Inv St.init 0 :=
  ⟨rfl, List.length_replicate, List.length_replicate, Nat.le_refl _, by decide, fun _ => by decide⟩

theorem err_inv {s : St} {n : Nat} (hh : s.hung = false) (hb : s.buf.length = 1342) (hx : s.rx.length = 32) :
    Inv (err s) n :=
  ⟨hh, hb, hx, Nat.zero_le _, by show 0 ≤ 1340; omega, fun h => absurd (List.mem_cons_self ..) h⟩

/-- Sending from the buffer is safe. -/
theorem sendBuf_inv {s : St} {re : Bool} {late : List Irq} {n : Nat} (hn : s.next = .toSend) (hh : s.hung = false)
    (hb : s.buf.length = 1342) (hx : s.rx.length = 32) (hs : s.rxSize ≤ n) (hsm : s.rxSize ≤ 1340)
    (h1 : s.sent ≤ s.txSize) (h2 : s.txSize ≤ 1342) (h3 : re = true → s.last ≤ s.sent) :
    ∃ t, sendBuf s re late = .ok t ∧ Inv t n := by
  have hse : (if re then (s.sent + 65536 - s.last) % 65536 else s.sent) ≤ s.txSize := by
    cases re
    · simpa using h1
    · have := h3 rfl
      simp only [if_true]
      omega
  unfold sendBuf
  generalize (if re then (s.sent + 65536 - s.last) % 65536 else s.sent) = a at hse
  simp only
  have hm : (s.txSize + 65536 - a) % 65536 = s.txSize - a := by omega
  rw [hm]
  by_cases c : s.txSize - a = 0
  · rw [if_pos (by simpa using c)]
    exact ⟨_, rfl, err_inv hh hb hx⟩
  · rw [if_neg (by simpa using c)]
    rw [rdRange_ok (by omega)]
    simp only [ok_bind, pure_eq_ok]
    rw [sendFrame_now _ _ (by exact hn)]
    simp only [hh, Bool.false_eq_true, if_false]
    refine ⟨_, rfl, rfl, hb, hx, hs, hsm, fun _ => ?_⟩
    simp only
    omega

theorem sendBuf_err {s : St} {n : Nat} {re : Bool} {late : List Irq} {t : St} (hn : s.next = .toSend) (hh : s.hung = false)
    (hb : s.buf.length = 1342) (hx : s.rx.length = 32) (hs : s.rxSize ≤ n) (hsm : s.rxSize ≤ 1340)
    (he : Ev.error ∈ s.log) (h : sendBuf s re late = .ok t) : Inv t n ∧ Ev.error ∈ t.log := by
  unfold sendBuf at h
  generalize (if re then (s.sent + 65536 - s.last) % 65536 else s.sent) = a at h
  simp only at h
  split at h
  · cases h
    exact ⟨err_inv hh hb hx, List.mem_cons_of_mem _ he⟩
  · cases hr : rdRange s.buf a (min ((s.txSize + 65536 - a) % 65536) 29) with
    | error x => rw [hr] at h; cases h
    | ok d =>
      rw [hr] at h
      simp only [ok_bind, pure_eq_ok] at h
      rw [sendFrame_now _ _ (by exact hn)] at h
      simp only [hh, Bool.false_eq_true, if_false] at h
      cases h
      exact ⟨⟨rfl, hb, hx, hs, hsm, fun hq => absurd (List.mem_cons_of_mem _ he) hq⟩, List.mem_cons_of_mem _ he⟩

/-- The length of the chain after a frame. -/
def chain1 (n : Nat) (f : Bytes) : Nat := if isChained f then n + (f.length - 3) else if isI f then 0 else n

/-- The reception of an I-block. -/
theorem recv_inv {s : St} {n : Nat} (hs : s.rxSize ≤ n) (hsm : s.rxSize ≤ 1340) (hx : s.rx.length = 32)
    (hb : s.buf.length = 1342) (h3 : 3 ≤ s.rxLen) (h32 : s.rxLen ≤ 32) (hc : n + (s.rxLen - 3) ≤ 1342) :
    (∃ b, b.length = 1342 ∧ recv s = .ok (err { s with buf := b }, false)) ∨
    (∃ b, b.length = 1342 ∧ s.rxSize + (s.rxLen - 3) ≤ 1340 ∧
      recv s = .ok ({ s with buf := b, rxSize := s.rxSize + (s.rxLen - 3) }, true)) := by
  have hl : ((s.rx.drop 1).take (s.rxLen - 3)).length = s.rxLen - 3 := by
    simp only [List.length_take, List.length_drop]; omega
  obtain ⟨b, h1, h2⟩ := wr_length (b := s.buf) (d := (s.rx.drop 1).take (s.rxLen - 3)) (off := s.rxSize) (by omega)
  unfold recv
  have h4 : ¬ s.rxLen < 3 := by omega
  simp only [h4, if_false, rdRange_ok (b := s.rx) (off := 1) (n := s.rxLen - 3) (by omega), ok_bind, h1, pure_eq_ok]
  by_cases c : s.rxSize + (s.rxLen - 3) > 1340
  · exact Or.inl ⟨b, by omega, by rw [if_pos c]⟩
  · exact Or.inr ⟨b, by omega, by omega, by rw [if_neg c]⟩

theorem turn_run (s : St) (t : Turn) : run s (turns [t]) = loop (irq s (.frame t.f)) t.e := by
  show run s [.irq (.frame t.f), .loop t.e] = _
  exact run_deliver _ _ _

theorem turns_cons (t : Turn) (l : List Turn) : turns (t :: l) = turns [t] ++ turns l := by
  simp [turns]

/-- Executing a command is safe. -/
theorem exec_inv {s : St} {e : Env} (hn : s.next = .toSend) (hh : s.hung = false) (hb : s.buf.length = 1342)
    (hx : s.rx.length = 32) (hsm : s.rxSize ≤ 1340) (hw : Waits e.mid) (hr : e.resp.length ≤ 1340) :
    ∃ t, exec s e = .ok t ∧ Inv t 0 := by
  obtain ⟨rr, hrr⟩ := Apdu.C05_never_oob ((s.buf.drop 0).take s.rxSize)
  unfold exec
  rw [rdRange_ok (by omega), ok_bind, hrr, ok_bind]
  cases rr with
  | none =>
    obtain ⟨b, h1, h2⟩ := wr_length (b := s.buf) (d := [0x67, 0x00]) (off := 0) (by rw [hb]; decide)
    simp only [h1, ok_bind]
    exact sendBuf_inv hn hh (by show b.length = _; omega) hx (Nat.le_refl _) (by show 0 ≤ 1340; omega)
      (by show 0 ≤ 2; omega) (by show 2 ≤ 1342; omega) (fun h => nomatch h)
  | some c =>
    have hrl : (e.resp ++ [e.sw1, e.sw2]).length = e.resp.length + 2 := by simp
    obtain ⟨x', k, h5, m, h6⟩ := irqs_waits hw
      (s := { s with log := .exec ((s.buf.drop 0).take s.rxSize) (e.resp ++ [e.sw1, e.sw2]) :: s.log }) hn hx
    simp only
    generalize hv : irqs _ e.mid = v at h6 ⊢
    have v1 : v.next = .toSend := by rw [h6]; exact hn
    have v2 : v.hung = false := by rw [h6]; exact hh
    have v4 : v.buf = s.buf := by rw [h6]
    have v5 : v.rx.length = 32 := by rw [h6]; exact h5
    obtain ⟨b, h1, h2⟩ := wr_length (b := v.buf) (d := e.resp ++ [e.sw1, e.sw2]) (off := 0) (by rw [v4, hb]; omega)
    rw [h1, ok_bind]
    exact sendBuf_inv v1 v2 (by show b.length = _; rw [h2, v4]; exact hb) v5 (Nat.le_refl _) (by show 0 ≤ 1340; omega)
      (by show 0 ≤ _; omega) (by show e.resp.length + 2 ≤ 1342; omega) (fun h => nomatch h)

/-- One turn. -/
theorem turn_inv {s : St} {n : Nat} {t : Turn} (h : Inv s n) (h3 : 3 ≤ t.f.length) (hc : isI t.f = true → n + (t.f.length - 3) ≤ 1342)
    (hw : Waits t.e.mid) (hr : t.e.resp.length ≤ 1340) :
    ((isI t.f = true ∨ Ev.error ∉ s.log) → ∃ u, run s (turns [t]) = .ok u) ∧
    ∀ u, run s (turns [t]) = .ok u → Inv u (chain1 n t.f) := by
  rw [turn_run]
  by_cases hl : t.f.length ≤ 32
  case neg =>
    have : irq s (.frame t.f) = err { s with rxLen := t.f.length } := by
      simp only [irq]
      rw [if_pos (by omega)]
    have hlp : loop (irq s (.frame t.f)) t.e = .ok (err { s with rxLen := t.f.length }) := by
      rw [this]
      unfold loop
      rw [if_pos (by simp [err])]
    rw [hlp]
    refine ⟨fun _ => ⟨_, rfl⟩, fun u hu => ?_⟩
    cases hu
    exact err_inv h.hung h.buf h.rxb
  case pos =>
    obtain ⟨p, tl, hp⟩ : ∃ p tl, t.f = p :: tl := by
      cases hf : t.f with
      | nil => rw [hf] at h3; exact absurd h3 (by simp)
      | cons p tl => exact ⟨p, tl, rfl⟩
    obtain ⟨hx1, hx2⟩ := rx_take (s := s) hl h.rxb
    have hir := irq_frame (s := s) hl
    generalize irq s (.frame t.f) = u at hx1 hx2 hir
    have hrd : rd u.rx 0 = .ok p := by
      rw [hp] at hx2
      exact rd_of_take hx2
    have u1 : u.next = .toSend := by rw [hir]
    have u2 : u.hung = false := by rw [hir]; exact h.hung
    have u3 : u.buf.length = 1342 := by rw [hir]; exact h.buf
    have u4 : u.rxLen = t.f.length := by rw [hir]
    have u5 : u.rxSize ≤ n := by rw [hir]; exact h.size
    have u6 : u.rxSize ≤ 1340 := by rw [hir]; exact h.small
    have u7 : Ev.error ∉ u.log → u.sent ≤ u.txSize ∧ u.txSize ≤ 1342 ∧ u.last ≤ u.sent := by rw [hir]; exact h.send
    have u8 : u.log = s.log := by rw [hir]
    clear hir
    rw [← u8]
    have hisI : isI t.f = (p &&& 0xC0 == 0) := by rw [hp]; rfl
    have hisC : isChained t.f = (p &&& 0xC0 == 0 && p &&& 0x10 != 0) := by rw [hp]; rfl
    unfold loop
    rw [if_neg (by simp [u1, u2]), hrd, ok_bind]
    by_cases cI : (p &&& 0xC0 == 0) = true
    · rw [if_pos cI]
      rw [cI] at hisI
      rcases recv_inv (s := { u with bn := u.bn ^^^ 1 }) (n := n) u5 u6 hx1 u3 (by show 3 ≤ u.rxLen; omega)
        (by show u.rxLen ≤ 32; omega) (by show n + (u.rxLen - 3) ≤ 1342; rw [u4]; exact hc hisI) with
        ⟨b, hb, hrc⟩ | ⟨b, hb, hsz, hrc⟩
      · rw [hrc]
        simp only [ok_bind, Bool.not_false, if_true, pure_eq_ok]
        refine ⟨fun _ => ⟨_, rfl⟩, fun v hv => ?_⟩
        cases hv
        exact err_inv u2 hb hx1
      · rw [hrc]
        simp only [ok_bind, Bool.not_true, Bool.false_eq_true, if_false, pure_eq_ok]
        by_cases cc : (p &&& 0x10 != 0) = true
        · rw [if_pos cc, sendFrame_now _ _ (by exact u1)]
          refine ⟨fun _ => ⟨_, rfl⟩, fun v hv => ?_⟩
          cases hv
          have : chain1 n t.f = n + (t.f.length - 3) := by
            unfold chain1
            rw [hisC, cI, cc]
            rfl
          rw [this]
          refine ⟨u2, hb, hx1, ?_, hsz, fun hq => u7 (fun hm => hq (List.mem_cons_of_mem _ hm))⟩
          show u.rxSize + (u.rxLen - 3) ≤ _
          omega
        · rw [if_neg cc]
          have : chain1 n t.f = 0 := by
            unfold chain1
            rw [hisC, hisI, cI]
            simp only [Bool.true_and, if_true]
            rw [if_neg cc]
          rw [this]
          obtain ⟨v, hv, hi⟩ := exec_inv
            (s := { u with bn := u.bn ^^^ 1, buf := b, rxSize := u.rxSize + (u.rxLen - 3) }) (e := t.e) u1 u2 hb hx1 hsz hw hr
          refine ⟨fun _ => ⟨v, hv⟩, fun w hw => ?_⟩
          rw [hv] at hw
          cases hw
          exact hi
    · have cI' : (p &&& 0xC0 == 0) = false := by simpa using cI
      have hch : chain1 n t.f = n := by
        unfold chain1
        rw [hisC, hisI, cI']
        rfl
      rw [if_neg cI, hch, hisI, cI']
      have key : ∀ (v : St) (re : Bool), v.next = .toSend → v.hung = false → v.buf.length = 1342 → v.rx.length = 32 →
          v.rxSize ≤ n → v.rxSize ≤ 1340 → v.log = u.log →
          (Ev.error ∉ u.log → v.sent ≤ v.txSize ∧ v.txSize ≤ 1342 ∧ v.last ≤ v.sent) →
          ((false = true ∨ Ev.error ∉ u.log) → ∃ w, sendBuf v re t.e.late = .ok w) ∧
          ∀ w, sendBuf v re t.e.late = .ok w → Inv w n := by
        intro v re v1 v2 v3 v4 v5 v6 v7 v8
        by_cases he : Ev.error ∈ u.log
        · refine ⟨fun hq => ?_, fun w hw => (sendBuf_err v1 v2 v3 v4 v5 v6 (v7 ▸ he) hw).1⟩
          rcases hq with hq | hq
          · exact nomatch hq
          · exact absurd he hq
        · obtain ⟨k1, k2, k3⟩ := v8 he
          obtain ⟨w, hw, hi⟩ := sendBuf_inv (re := re) (late := t.e.late) v1 v2 v3 v4 v5 v6 k1 k2 (fun _ => k3)
          refine ⟨fun _ => ⟨w, hw⟩, fun w' hw' => ?_⟩
          rw [hw] at hw'
          cases hw'
          exact hi
      by_cases cR : (p &&& 0xC0 == 0x80) = true
      · rw [if_pos cR]
        by_cases cn : (p &&& 1 == u.bn) = true
        · rw [if_pos cn]
          exact key u true u1 u2 u3 hx1 u5 u6 rfl u7
        · rw [if_neg cn]
          by_cases ca : (p &&& 0xB2 == 0xA2 || u.inf) = true
          · rw [if_pos ca]
            exact key _ false u1 u2 u3 hx1 u5 u6 rfl u7
          · rw [if_neg ca, sendFrame_now _ _ u1]
            refine ⟨fun _ => ⟨_, rfl⟩, fun v hv => ?_⟩
            cases hv
            exact ⟨u2, u3, hx1, u5, u6, fun hq => u7 (fun hm => hq (List.mem_cons_of_mem _ hm))⟩
      · rw [if_neg cR]
        refine ⟨fun _ => ⟨_, rfl⟩, fun v hv => ?_⟩
        cases hv
        exact ⟨u2, u3, hx1, u5, u6, u7⟩

theorem turns_inv : ∀ (l : List Turn) {s t : St} {n : Nat}, Inv s n → (∀ x ∈ l, 3 ≤ x.f.length ∧ Waits x.e.mid ∧ x.e.resp.length ≤ 1340) →
    (∀ a x b, l = a ++ x :: b → isI x.f = true → chain n a + (x.f.length - 3) ≤ 1342) → run s (turns l) = .ok t →
    Inv t (chain n l)
  | [], s, t, n, h, _, _, hr => by
    cases hr
    exact h
  | x :: l, s, t, n, h, h1, h2, hr => by
    rw [turns_cons, run_append] at hr
    obtain ⟨k1, k2, k3⟩ := h1 x (by simp)
    obtain ⟨-, h4⟩ := turn_inv (t := x) h k1 (h2 [] x l rfl) k2 k3
    cases hx : run s (turns [x]) with
    | error e => rw [hx] at hr; cases hr
    | ok u =>
      rw [hx] at hr
      exact turns_inv l (h4 u hx) (fun y hy => h1 y (by simp [hy]))
        (fun a y b hab hy => h2 (x :: a) y b (by rw [hab]; rfl) hy) hr

/-- C49: after any sequence of blocks of at least three bytes, in which no chain of I-blocks is longer than the buffer
(1342 bytes), the next such block is handled without any access outside the buffer, if it is an I-block or if the card
has not handled an error before.

Missing: shorter blocks (`C49_refuted_short`), longer chains (`C49_refuted`), R-blocks after an error
(`C49_refuted_read`). -/
theorem C49_buffer_safe_partial {l : List Turn} {x : Turn} {t : St} (hr : run St.init (turns l) = .ok t)
    (hl : ∀ y ∈ l ++ [x], 3 ≤ y.f.length ∧ Waits y.e.mid ∧ y.e.resp.length ≤ 1340)
    (hc : ∀ a y b, l ++ [x] = a ++ y :: b → isI y.f = true → chain 0 a + (y.f.length - 3) ≤ 1342)
    (hx : isI x.f = true ∨ Ev.error ∉ t.log) : ∃ u, run St.init (turns (l ++ [x])) = .ok u := by
  have hi := turns_inv l init_inv (fun y hy => hl y (by simp [hy]))
    (fun a y b hab => hc a y (b ++ [x]) (by rw [hab]; simp)) hr
  obtain ⟨k1, k2, k3⟩ := hl x (by simp)
  obtain ⟨u, hu⟩ := (turn_inv (t := x) hi k1 (hc l x [] rfl) k2 k3).1 hx
  refine ⟨u, ?_⟩
  have : turns (l ++ [x]) = turns l ++ turns [x] := by simp [turns]
  rw [this, run_append, hr]
  exact hu

end Verif.Nfc
