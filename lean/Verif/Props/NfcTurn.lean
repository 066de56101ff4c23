import Verif.Props.NfcEx
/-
C79: the card speaks only when it has been spoken to.
-/
namespace Verif.Nfc
open Verif.Spec.Nfc

/-- The number of frames among interrupts. -/
def heard (l : List Irq) : Nat := l.countP fun i => match i with | .frame _ => true | _ => false

/-- The number of frames that arrive in a history: by themselves, while a command is executed and while the card is about to send. -/
def heardIn (h : List Op) : Nat :=
  (h.map fun op => match op with | .irq i => heard [i] | .loop e => heard e.mid + heard e.late).sum

/-- Something has been received and not been answered. -/
def due (s : St) : Nat := if s.next = .toSend then 1 else 0

/-- From `s` to `t` with `n` frames heard. -/
structure Polite (s : St) (n : Nat) (t : St) : Prop where
  count : (frames t).length + due t ≤ (frames s).length + due s + n
  short : (∀ f ∈ frames s, f.length ≤ 30) → ∀ f ∈ frames t, f.length ≤ 30

theorem Polite.refl (s : St) : Polite s 0 s := ⟨Nat.le_refl _, id⟩

theorem Polite.same {s t : St} (h1 : frames t = frames s) (h2 : t.next = s.next) : Polite s 0 t :=
  ⟨by unfold due; rw [h1, h2]; omega, by rw [h1]; exact id⟩

theorem Polite.trans {s t u : St} {n m : Nat} (h : Polite s n t) (k : Polite t m u) : Polite s (n + m) u :=
  ⟨by have := h.count; have := k.count; omega, fun x => k.short (h.short x)⟩

theorem Polite.mono {s t : St} {n m : Nat} (h : Polite s n t) (k : n ≤ m) : Polite s m t :=
  ⟨by have := h.count; omega, h.short⟩

theorem Polite.from {s s0 t : St} {n : Nat} (k : Polite s0 n t) (h1 : frames s0 = frames s) (h2 : s0.next = s.next) : Polite s n t := by
  simpa using (Polite.same h1 h2).trans k

theorem Polite.upto {s t0 t : St} {n : Nat} (k : Polite s n t0) (h1 : frames t = frames t0) (h2 : t.next = t0.next) : Polite s n t := by
  simpa using k.trans (Polite.same h1 h2)

theorem polite_err (s : St) : Polite s 0 (err s) := by
  have h1 : frames (err s) = frames s := by simp [frames, err, frameOf, List.filterMap_cons]
  exact ⟨by rw [h1]; simp [due, err], by rw [h1]; exact id⟩

theorem polite_reply {s : St} (h : s.next = .toSend) {f : Bytes} (hf : f.length ≤ 30) :
    Polite s 0 { s with log := .sent f :: s.log, next := .toReceive } := by
  have h1 : frames { s with log := .sent f :: s.log, next := Next.toReceive } = f :: frames s := by
    simp [frames, frameOf, List.filterMap_cons]
  refine ⟨by rw [h1]; simp [due, h], ?_⟩
  rw [h1]
  intro k g hg
  rcases List.mem_cons.1 hg with rfl | hg
  · exact hf
  · exact k g hg

theorem polite_irq (s : St) (i : Irq) : Polite s (heard [i]) (irq s i) := by
  cases i with
  | wtx =>
    show Polite s 0 (if s.next = .toSend then { s with log := .sent [0xF2, 1] :: s.log, next := .toReceive } else s)
    split
    · next h => exact polite_reply h (by decide)
    · exact .refl s
  | aux => exact polite_err s
  | frame f =>
    unfold irq
    simp only
    split
    · exact (Polite.from (s := s) (polite_err { s with rxLen := f.length }) rfl rfl).mono (Nat.zero_le _)
    · refine ⟨?_, id⟩
      show (frames s).length + 1 ≤ _
      simp only [heard, List.countP_cons, List.countP_nil, if_true]
      omega

theorem heard_cons (i : Irq) (l : List Irq) : heard (i :: l) = heard [i] + heard l := by
  simp only [heard, List.countP_cons, List.countP_nil]
  omega

theorem polite_irqs : ∀ (l : List Irq) (s : St), Polite s (heard l) (irqs s l)
  | [], s => .refl s
  | i :: l, s => by
    rw [heard_cons]
    exact (polite_irq s i).trans (polite_irqs l _)

theorem polite_sendFrame {f : Bytes} (hf : f.length ≤ 30) : ∀ (l : List Irq) (s : St), Polite s (heard l) (sendFrame s f l)
  | [], s => by
    unfold sendFrame
    split
    · next h => exact polite_reply h hf
    · exact .same rfl rfl
  | i :: l, s => by
    unfold sendFrame
    split
    · next h => exact (polite_reply h hf).mono (Nat.zero_le _)
    · rw [heard_cons]
      exact (polite_irq s i).trans (polite_sendFrame hf l _)

theorem polite_sendBuf {s t : St} {re : Bool} {late : List Irq} (h : sendBuf s re late = .ok t) : Polite s (heard late) t := by
  unfold sendBuf at h
  generalize (if re then (s.sent + 65536 - s.last) % 65536 else s.sent) = a at h
  simp only at h
  split at h
  · cases h
    exact (Polite.from (s := s) (polite_err { s with sent := a, last := 0 }) rfl rfl).mono (Nat.zero_le _)
  · generalize hn : min ((s.txSize + 65536 - a) % 65536) 29 = n at h
    cases hr : rdRange s.buf a n with
    | error e => rw [hr] at h; cases h
    | ok d =>
      have hd : d.length ≤ 29 := by
        have : d.length ≤ n := by
          unfold rdRange at hr
          split at hr
          · cases hr
            simp only [List.length_take]; omega
          · cases hr
        omega
      simp only [hr, ok_bind] at h
      have key : ∀ p : Byte, Polite s (heard late) (sendFrame { s with sent := a, last := n } (p :: d) late) := fun p =>
        (polite_sendFrame (f := p :: d) (by simp only [List.length_cons]; omega) late { s with sent := a, last := n }).from rfl rfl
      generalize (s.bn ||| 0x02 ||| (if s.txSize > a + n then 0x10 else 0) : Byte) = p at h
      have k := key p
      generalize sendFrame { s with sent := a, last := n } (p :: d) late = u at h k
      split at h
      · cases h
        exact k
      · cases h
        exact k.upto rfl rfl

theorem polite_recv {s t : St} {ok : Bool} (h : recv s = .ok (t, ok)) : Polite s 0 t := by
  unfold recv at h
  split at h
  · cases h
  · cases h1 : rdRange s.rx 1 (s.rxLen - 3) with
    | error e => simp only [h1] at h; cases h
    | ok d =>
      simp only [h1, ok_bind] at h
      cases h2 : wrRange s.buf s.rxSize d with
      | error e => simp only [h2] at h; cases h
      | ok b =>
        simp only [h2, pure_eq_ok, ok_bind] at h
        split at h
        · cases h
          exact (polite_err { s with buf := b }).from rfl rfl
        · cases h
          exact .same rfl rfl

theorem polite_exec {s t : St} {e : Env} (h : exec s e = .ok t) : Polite s (heard e.mid + heard e.late) t := by
  unfold exec at h
  cases h1 : rdRange s.buf 0 s.rxSize with
  | error e => rw [h1] at h; cases h
  | ok cmd =>
    rw [h1, ok_bind] at h
    cases h2 : Apdu.buildCapdu cmd with
    | error e => rw [h2] at h; cases h
    | ok r =>
      rw [h2, ok_bind] at h
      cases r with
      | none =>
        simp only at h
        cases h3 : wrRange s.buf 0 [0x67, 0x00] with
        | error e => rw [h3] at h; cases h
        | ok b =>
          rw [h3, ok_bind] at h
          exact (Polite.from (s := s) (polite_sendBuf h) rfl rfl).mono (Nat.le_add_left _ _)
      | some c =>
        simp only at h
        have k1 : Polite s (heard e.mid) (irqs { s with log := .exec cmd (e.resp ++ [e.sw1, e.sw2]) :: s.log } e.mid) := by
          have := (Polite.same (s := s) (t := { s with log := .exec cmd (e.resp ++ [e.sw1, e.sw2]) :: s.log })
            (by simp [frames, frameOf, List.filterMap_cons]) rfl).trans (polite_irqs e.mid _)
          simpa using this
        generalize irqs { s with log := .exec cmd (e.resp ++ [e.sw1, e.sw2]) :: s.log } e.mid = u at h k1
        cases h3 : wrRange u.buf 0 (e.resp ++ [e.sw1, e.sw2]) with
        | error e => rw [h3] at h; cases h
        | ok b =>
          rw [h3, ok_bind] at h
          exact k1.trans ((polite_sendBuf h).from rfl rfl)

theorem polite_loop {s t : St} {e : Env} (h : loop s e = .ok t) : Polite s (heard e.mid + heard e.late) t := by
  have ack : ∀ u : St, (sendFrame u [0xA2 ||| u.bn] e.late) = t → Polite u (heard e.mid + heard e.late) t := by
    intro u hu
    rw [← hu]
    exact (polite_sendFrame (by simp) _ _).mono (by omega)
  unfold loop at h
  split at h
  · cases h; exact (Polite.refl s).mono (by omega)
  · cases h1 : rd s.rx 0 with
    | error e => rw [h1] at h; cases h
    | ok p =>
      rw [h1, ok_bind] at h
      simp only at h
      split at h
      · cases h2 : recv { s with bn := s.bn ^^^ 1 } with
        | error e => rw [h2] at h; cases h
        | ok q =>
          obtain ⟨u, ok⟩ := q
          have k := (Polite.same (s := s) (t := { s with bn := s.bn ^^^ 1 }) rfl rfl).trans (polite_recv h2)
          simp only [h2, ok_bind] at h
          split at h
          · cases h; exact k.mono (by omega)
          · split at h
            · cases h
              exact (k.trans (ack u rfl)).mono (by omega)
            · exact (k.trans (polite_exec h)).mono (by omega)
      · split at h
        · split at h
          · exact (polite_sendBuf h).mono (by omega)
          · split at h
            · exact ((Polite.same (s := s) (t := { s with bn := s.bn ^^^ 1 }) rfl rfl).trans (polite_sendBuf h)).mono (by omega)
            · cases h
              exact ack s rfl
        · cases h; exact (Polite.refl s).mono (by omega)

theorem polite_run : ∀ (h : List Op) (s t : St), run s h = .ok t → Polite s (heardIn h) t
  | [], s, t, e => by cases e; exact .refl s
  | op :: h, s, t, e => by
    unfold run at e
    cases hs : step s op with
    | error x => rw [hs] at e; cases e
    | ok u =>
      rw [hs, ok_bind] at e
      have k : Polite s (heardIn [op]) u := by
        cases op with
        | irq i => cases hs; simpa [heardIn] using polite_irq s i
        | loop x => simpa [heardIn] using polite_loop (e := x) hs
      have : heardIn (op :: h) = heardIn [op] + heardIn h := by simp [heardIn]
      rw [this]
      exact k.trans (polite_run h u t e)

/-- C79: in any stretch of any history the card sends at most one frame for each frame that arrives in it, and one more if a frame was
waiting for its answer when the stretch began. -/
theorem C79_only_in_reply (before h : List Op) (s t : St) (hb : run St.init before = .ok s) (hr : run s h = .ok t) :
    (frames t).length ≤ (frames s).length + heardIn h + (if s.next = .toSend then 1 else 0) ∧
      (frames t).length ≤ heardIn (before ++ h) := by
  have k := polite_run h s t hr
  have k0 := (polite_run before _ s hb).trans k
  have : heardIn (before ++ h) = heardIn before + heardIn h := by simp [heardIn]
  refine ⟨by have := k.count; unfold due at this; omega, ?_⟩
  have := k0.count
  simp only [frames, St.init, List.filterMap_nil, List.length_nil, due] at this
  simp only [frames]
  simp only [reduceCtorEq, if_false] at this
  omega

/-- C79: every frame fits into the 32 bytes of the chip, with the two bytes of the checksum. -/
theorem C79_short_frames (h : List Op) (t : St) (hr : run St.init h = .ok t) : ∀ f ∈ frames t, f.length + 2 ≤ 32 := by
  intro f hf
  have := (polite_run h _ t hr).short (fun f hf => nomatch (show f ∈ ([] : List Bytes) from hf)) f hf
  omega

/-- A command whose execution takes two time extensions: four frames arrive, three are sent. -/
def slow : List Op :=
  [.irq (.frame (iBlock false false [0x00, 0xA4, 0x04, 0x00] 0 0)),
    .loop ⟨[0x11], 0x90, 0x00, [.wtx, .wtx, .frame [0xF2, 1, 0, 0], .wtx, .frame [0xF2, 1, 0, 0]], []⟩,
    .irq .wtx, .irq (.frame (rNak true 0 0))]

example : heardIn slow = 4 ∧ (match run St.init slow with | .ok t => (frames t, t.next) | .error _ => ([], .toReceive)) =
    ([[0x02, 0x11, 0x90, 0x00], [0xF2, 1], [0xF2, 1]], .toSend) := by decide +kernel

end Verif.Nfc
