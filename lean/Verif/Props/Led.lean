import Verif.Spec.Led
/-
C117: the light follows a small machine.
-/
namespace Verif.Led
open Verif.Spec.Led

/-- The last moment for which the claim is made: the longest blink ends before the clock of the device starts again. -/
def lastMoment : Nat := 2 ^ 32 - 255001

/-- The state of the code shows the lamp. -/
structure Shows (s : St) (l : Lamp) : Prop where
  now : s.now = l.now
  cfg : s.cfg = l.normal
  on : s.on = l.lit
  changed : s.last = l.changed
  touched : s.touched = l.touched
  nfc : s.nfc = l.nfc
  past : l.changed ≤ l.now
  timeout : s.timeout = match l.blink with
    | none => 0
    | some b => match b.ends with
      | none => 2 ^ 32 - 1
      | some u => u
  ends : ∀ b, l.blink = some b → s.interval = b.interval ∧ ∀ u, b.ends = some u → 0 < u ∧ u < 2 ^ 32

theorem shows_init (c : Bool) : Shows (init c) (Lamp.new c) := by
  constructor <;> simp [init, Lamp.new, Lamp.lit]

theorem shows_stop {s : St} {l : Lamp} (h : Shows s l) (c : Bool) :
    Shows (stop { s with cfg := c }) { l with normal := c, blink := none } := by
  obtain ⟨h1, h2, h3, h4, h5, h6, h7, h8, h9⟩ := h
  constructor <;> simp_all [stop, Lamp.lit]

theorem blinking_iff {s : St} {l : Lamp} (h : Shows s l) : isBlinking s = l.blink.isSome := by
  have h8 := h.timeout
  have h9 := h.ends
  unfold isBlinking
  cases hb : l.blink with
  | none => simp [h8, hb]
  | some b =>
    rw [hb] at h8
    cases he : b.ends with
    | none => simp [h8, he]
    | some u =>
      have := ((h9 b hb).2 u he).1
      simp [h8, he]; omega

theorem shows_start {s : St} {l : Lamp} (h : Shows s l) (hn : l.now ≤ lastMoment) (sec : UInt8) (i : UInt32) :
    Shows (start s sec i) (l.begin sec.toNat i.toNat) := by
  have hb := blinking_iff h
  unfold start Lamp.begin
  cases hl : l.blink with
  | some b => simp only [hb, hl, Option.isSome_some, if_true]; exact h
  | none =>
    simp only [hb, hl, Option.isSome_none, Bool.false_eq_true, if_false]
    have ht : s.tick = l.now := by
      unfold St.tick; rw [h.now]; unfold lastMoment at hn; omega
    have hs := sec.toNat_lt
    have hz : sec = 0 ↔ sec.toNat = 0 := by
      constructor
      · rintro rfl; rfl
      · intro e; exact UInt8.toNat_inj.mp e
    obtain ⟨h1, h2, h3, h4, h5, h6, h7, h8, h9⟩ := h
    have h3' : s.on = l.normal := by rw [h3]; simp [Lamp.lit, hl]
    unfold lastMoment at hn
    by_cases h0 : sec.toNat = 0
    · have h0' := hz.mpr h0
      constructor <;> simp [toggle, h0, h0', Lamp.lit, *]
    · have h0' : ¬ sec = 0 := fun e => h0 (hz.mp e)
      have hm : (l.now + sec.toNat * 1000) % 2 ^ 32 = l.now + 1000 * sec.toNat := by omega
      constructor <;> simp only [toggle, h0, h0', Lamp.lit, if_false, ht, hm, h1, h2, h3', h5, h6, Nat.le_refl]
      · rfl
      · rintro b ⟨⟩
        refine ⟨rfl, ?_⟩
        rintro u ⟨⟩
        omega

theorem shows_look {s : St} {l : Lamp} (h : Shows s l) (hn : l.now ≤ lastMoment) : Shows (update s) l.look := by
  have hb := blinking_iff h
  have ht : s.tick = l.now := by
    unfold St.tick; rw [h.now]; unfold lastMoment at hn; omega
  have hstop := shows_stop h s.cfg
  unfold update Lamp.look
  obtain ⟨h1, h2, h3, h4, h5, h6, h7, h8, h9⟩ := h
  cases hl : l.blink with
  | none =>
    have hs : Shows s l := ⟨h1, h2, h3, h4, h5, h6, h7, h8, h9⟩
    simp only
    split
    · rw [h2] at hstop
      have e : ({ s with cfg := l.normal } : St) = s := by rw [← h2]
      rw [e] at hstop
      have e' : ({ l with normal := l.normal, blink := none } : Lamp) = l := by rw [← hl]
      rw [e'] at hstop
      exact hstop
    · rw [hb, hl]; simpa using hs
  | some b =>
    have hs : Shows s l := ⟨h1, h2, h3, h4, h5, h6, h7, h8, h9⟩
    obtain ⟨hi, he⟩ := h9 b hl
    have hcond : (s.tick > s.timeout) ↔ (b.over l.now = true) := by
      rw [ht, h8, hl]
      unfold lastMoment at hn
      cases hx : b.ends with
      | none => simp only [Blink.over, hx, Bool.false_eq_true, iff_false]; omega
      | some u => simp [Blink.over, hx]
    simp only
    by_cases hc : b.over l.now = true
    · rw [if_pos (hcond.mpr hc), if_pos hc]
      rw [h2] at hstop
      have e : ({ s with cfg := l.normal } : St) = s := by rw [← h2]
      rw [e] at hstop
      exact hstop
    · rw [if_neg (fun e => hc (hcond.mp e)), if_neg hc, hb, hl, ht, h4, hi]
      by_cases hf : l.changed + b.interval ≤ l.now
      · rw [if_pos hf, if_pos (by simp; omega)]
        constructor <;> simp only [toggle, h1, h2, h5, h6, Nat.le_refl]
        · rw [h3]
          simp only [Lamp.lit, hl]
          rcases Nat.mod_two_eq_zero_or_one b.flips with e | e
          · rw [if_neg (by omega), if_pos (by omega)]
          · rw [if_pos e, if_neg (by omega), Bool.not_not]
        · rw [h8, hl]
        · rintro b' ⟨⟩
          exact ⟨rfl, he⟩
      · rw [if_neg hf, if_neg (by simp; omega)]
        exact hs

theorem now_step (l : Lamp) (o : Op) : (l.step o).now = l.now + time [o] := by
  cases o <;> simp only [Lamp.step, time, Lamp.look, Lamp.begin, Nat.add_zero] <;> (repeat' split) <;> rfl

theorem time_cons (o : Op) (h : List Op) : time (o :: h) = time [o] + time h := by
  cases o <;> simp [time]

theorem shows_step {s : St} {l : Lamp} (h : Shows s l) (hn : l.now ≤ lastMoment) (o : Op) : Shows (step s o) (l.step o) := by
  cases o with
  | pass ms =>
    obtain ⟨h1, h2, h3, h4, h5, h6, h7, h8, h9⟩ := h
    exact ⟨by simp [step, Lamp.step, h1], h2, h3, h4, h5, h6, Nat.le_add_right_of_le h7, h8, h9⟩
  | update => exact shows_look h hn
  | start sec i => exact shows_start h hn sec i
  | ask sec q =>
    simp only [step, Lamp.step, ask, h.nfc]
    split
    · exact h
    · have := shows_start h hn sec (if q then 25 else 200)
      cases q <;> exact this
  | stop =>
    have := shows_stop h s.cfg
    rw [h.cfg] at this
    have e : ({ s with cfg := l.normal } : St) = s := by rw [← h.cfg]
    rw [e] at this
    exact this
  | config b => exact shows_stop h b
  | touch b =>
    obtain ⟨h1, h2, h3, h4, h5, h6, h7, h8, h9⟩ := h
    exact ⟨h1, h2, h3, h4, rfl, h6, h7, h8, h9⟩
  | nfc b =>
    obtain ⟨h1, h2, h3, h4, h5, h6, h7, h8, h9⟩ := h
    exact ⟨h1, h2, h3, h4, h5, rfl, h7, h8, h9⟩

theorem shows_run {s : St} {l : Lamp} (h : Shows s l) : ∀ ops : List Op, l.now + time ops ≤ lastMoment →
    Shows (run s ops) (ops.foldl Lamp.step l) ∧ (ops.foldl Lamp.step l).now = l.now + time ops := by
  intro ops
  induction ops generalizing s l with
  | nil => exact fun _ => ⟨h, rfl⟩
  | cons o ops ih =>
    intro hn
    rw [time_cons] at hn
    have := ih (shows_step h (by omega) o) (by rw [now_step]; omega)
    refine ⟨this.1, ?_⟩
    rw [List.foldl_cons, this.2, now_step, time_cons o ops]
    omega

/-- **C117.** After every history that is over before the clock starts again, the light is on exactly if the lamp of the
specification is, and a touch is taken for the keyboard exactly if the specification says so. -/
theorem C117_history_partial (c : Bool) (ops : List Op) (ht : time ops ≤ lastMoment) :
    let s := run (init c) ops
    let l := ops.foldl Lamp.step (Lamp.new c)
    s.on = l.lit ∧ isBlinking s = l.blink.isSome ∧ (allowKbd s = true ↔ l.Keyboard) := by
  intro s l
  obtain ⟨h, hn⟩ := shows_run (shows_init c) ops (by simpa [Lamp.new] using ht)
  have hnow : l.now = time ops := by rw [show l.now = _ from hn]; simp [Lamp.new]
  have hb := blinking_iff h
  refine ⟨h.on, hb, ?_⟩
  have htick : s.tick = l.now := by
    unfold St.tick; rw [show s.now = l.now from h.now]; unfold lastMoment at ht; omega
  unfold allowKbd Lamp.Keyboard
  rw [hb, htick, h.changed, h.touched]
  change (!l.blink.isSome && decide (l.now > 1500) && decide ((l.now + 2 ^ 32 - 1000) % 2 ^ 32 > l.changed) && l.touched) = true ↔ _
  simp only [Bool.and_eq_true, decide_eq_true_eq, Bool.not_eq_true', Option.isSome_eq_false_iff]
  have hp : l.changed ≤ l.now := h.past
  unfold lastMoment at ht
  have hmod : 1500 < l.now → (l.now + 2 ^ 32 - 1000) % 2 ^ 32 = l.now - 1000 := by intro _; omega
  constructor
  · rintro ⟨⟨⟨h1, h2⟩, h3⟩, h4⟩
    rw [hmod h2] at h3
    exact ⟨h4, h1, h2, by omega⟩
  · rintro ⟨h4, h1, h2, h3⟩
    refine ⟨⟨⟨h1, h2⟩, ?_⟩, h4⟩
    rw [hmod h2]; omega

/-- Nothing but a new request prolongs a blink. -/
theorem ends_kept {l : Lamp} {u : Nat} (h : ∀ b, l.blink = some b → b.ends = some u) : ∀ ops : List Op,
    (∀ o ∈ ops, (∀ a b, o ≠ .start a b) ∧ ∀ a b, o ≠ .ask a b) →
    ∀ b, (ops.foldl Lamp.step l).blink = some b → b.ends = some u := by
  intro ops
  induction ops generalizing l with
  | nil => exact fun _ => h
  | cons o ops ih =>
    intro ho
    apply ih (l := l.step o) _ (fun o' h' => ho o' (List.mem_cons_of_mem _ h'))
    obtain ⟨h1, h2⟩ := ho o List.mem_cons_self
    intro b hb
    cases o with
    | pass ms => exact h b hb
    | update =>
      simp only [Lamp.step, Lamp.look] at hb
      split at hb
      · rename_i e; rw [e] at hb; cases hb
      · rename_i b' e
        split at hb
        · cases hb
        · split at hb
          · obtain rfl := Option.some.inj hb; exact (h b' e :)
          · exact h b hb
    | start a b => exact absurd rfl (h1 a b)
    | ask a b => exact absurd rfl (h2 a b)
    | stop => cases hb
    | config c => cases hb
    | touch c => exact h b hb
    | nfc c => exact h b hb

/-- **C117.** A blink for a number of seconds is over when they are: whatever happens in between except new requests, at
the first update after them the light is in its normal state. -/
theorem C117_ends (c : Bool) (before after : List Op) (sec : UInt8) (i : UInt32) (hs : sec ≠ 0)
    (ht : time before + time after ≤ lastMoment) (hq : isBlinking (run (init c) before) = false)
    (hl : sec.toNat * 1000 < time after)
    (ho : ∀ o ∈ after, (∀ a b, o ≠ .start a b) ∧ ∀ a b, o ≠ .ask a b) :
    let s := run (init c) (before ++ [.start sec i] ++ after ++ [.update])
    s.on = s.cfg ∧ isBlinking s = false := by
  intro s
  obtain ⟨h, hn⟩ := shows_run (shows_init c) before (by simp only [Lamp.new]; omega)
  generalize hl0 : before.foldl Lamp.step (Lamp.new c) = l at h hn
  have hb : l.blink = none := by
    have := blinking_iff h; rw [hq] at this; simpa using this.symm
  simp only [Lamp.new, Nat.zero_add] at hn
  have h1 := shows_step h (by omega) (.start sec i)
  have hz : sec.toNat ≠ 0 := fun e => hs (UInt8.toNat_inj.mp e)
  have hn1 : (l.step (.start sec i)).now = l.now := by rw [now_step]; rfl
  obtain ⟨h2, hn2⟩ := shows_run h1 after (by rw [hn1]; omega)
  have h3 := shows_look h2 (by rw [hn2, hn1]; omega)
  have he := ends_kept (l := l.step (.start sec i)) (u := l.now + 1000 * sec.toNat)
    (by intro b hb'; simp only [Lamp.step, Lamp.begin, hb, hz, if_false] at hb'; cases hb'; rfl) after ho
  have e : s = update (run (step (run (init c) before) (.start sec i)) after) := by
    simp [s, run, List.foldl_append, step]
  rw [e]
  have hnone : (Lamp.look (after.foldl Lamp.step (l.step (.start sec i)))).blink = none := by
    unfold Lamp.look
    split
    · assumption
    · rename_i b hb'
      rw [if_pos (by rw [hn2, hn1]; simp [Blink.over, he b hb']; omega)]
  have hbl := blinking_iff h3
  rw [hnone] at hbl
  refine ⟨?_, hbl⟩
  rw [h3.on, h3.cfg]
  simp [Lamp.lit, hnone]

/-- **C117, refuted after 49 days.** A request without an end, made shortly before the clock starts again, makes the
light stand still: a minute later it has not changed although it should have changed 300 times. -/
theorem C117_refuted_wrap : ∃ ops : List Op, time ops = 2 ^ 32 + 60000 ∧
    (run (init false) ops).on = true ∧ isBlinking (run (init false) ops) = true ∧
    ∀ ms < 2 ^ 32 - 60100, step (run (init false) (ops ++ [.pass ms])) .update = run (init false) (ops ++ [.pass ms]) := by
  refine ⟨[.pass (2 ^ 32 - 100), .ask 0 false, .pass 60100], by simp [time], by decide +kernel, by decide +kernel, ?_⟩
  intro ms hms
  have e : run (init false) ([.pass (2 ^ 32 - 100), .ask 0 false, .pass 60100] ++ [.pass ms]) =
      ⟨2 ^ 32 + 60000 + ms, 2 ^ 32 - 100, 2 ^ 32 - 1, 200, true, false, false, false⟩ := by
    simp [run, step, ask, start, init, isBlinking, toggle, St.tick]
  rw [e]
  change update _ = _
  unfold update
  rw [if_neg (by simp [St.tick]; omega), if_neg (by simp [St.tick]; omega)]

/-- **C117, refuted after 49 days.** If the light blinked in the last second before the clock starts again, no touch is
taken for the keyboard, however long it is dark, until it blinks again. -/
theorem C117_refuted_keyboard (after : List Op) (ho : ∀ o ∈ after, (∀ a b, o ≠ .start a b) ∧ ∀ a b, o ≠ .ask a b) :
    allowKbd (run (init false) ([.pass (2 ^ 32 - 100), .ask 0 false, .stop] ++ after)) = false := by
  have inv : ∀ (after : List Op) (s : St), (∀ o ∈ after, (∀ a b, o ≠ .start a b) ∧ ∀ a b, o ≠ .ask a b) →
      s.timeout = 0 ∧ s.last = 2 ^ 32 - 100 → (run s after).timeout = 0 ∧ (run s after).last = 2 ^ 32 - 100 := by
    intro after
    induction after with
    | nil => exact fun s _ h => h
    | cons o after ih =>
      intro s ho h
      apply ih (step s o) (fun o' h' => ho o' (List.mem_cons_of_mem _ h'))
      obtain ⟨h1, h2⟩ := ho o List.mem_cons_self
      cases o with
      | start a b => exact absurd rfl (h1 a b)
      | ask a b => exact absurd rfl (h2 a b)
      | update =>
        simp only [step, update, isBlinking, h.1]
        split
        · exact ⟨rfl, h.2⟩
        · simpa using h
      | _ => first | exact h | exact ⟨rfl, h.2⟩
  have h0 := inv after (run (init false) [.pass (2 ^ 32 - 100), .ask 0 false, .stop]) ho (by decide +kernel)
  have e : run (init false) ([.pass (2 ^ 32 - 100), .ask 0 false, .stop] ++ after) =
      run (run (init false) [.pass (2 ^ 32 - 100), .ask 0 false, .stop]) after := by
    simp only [run, List.foldl_append]
  rw [e]
  generalize run (run (init false) _) after = s at h0
  have ht : s.tick < 2 ^ 32 := Nat.mod_lt _ (by decide)
  unfold allowKbd
  rw [h0.2]
  simp
  omega

/-! ### Interrupts between statements -/

/-- Time passes. -/
def later (n : Nat) (s : St) : St := { s with now := s.now + n }

theorem later_later (s : St) (a b : Nat) : later b (later a s) = later (a + b) s := by simp [later, Nat.add_assoc]

/-- Interrupts while the light is dark change nothing. -/
theorem irq_dark (ds : List Nat) : ∀ s : St, s.timeout = 0 → s.on = s.cfg → irq ds s = later ds.sum s := by
  induction ds with
  | nil => intro s _ _; simp [irq, later]
  | cons d ds ih =>
    intro s h1 h2
    have e : update (later d s) = later d s := by
      obtain ⟨n, l, t, i, o, c, q, f⟩ := s
      simp only at h1 h2
      subst h1 h2
      unfold update
      split
      · rfl
      · rw [if_neg (by simp [later, isBlinking])]
    have : irq (d :: ds) s = irq ds (update (later d s)) := rfl
    rw [this, e, ih (later d s) h1 h2, later_later, List.sum_cons]

/-- Interrupts before the interval is over change nothing. -/
theorem irq_lit (ds : List Nat) : ∀ s : St, s.timeout ≠ 0 → s.last ≤ s.now → s.now + ds.sum ≤ s.timeout →
    s.timeout < 2 ^ 32 → s.now + ds.sum < s.last + s.interval → irq ds s = later ds.sum s := by
  induction ds with
  | nil => intro s _ _ _ _ _; simp [irq, later]
  | cons d ds ih =>
    intro s h1 h2 h3 h4 h5
    rw [List.sum_cons] at h3 h5 ⊢
    have e : update (later d s) = later d s := by
      have ht : (later d s).tick = s.now + d := by simp only [St.tick, later]; omega
      unfold update
      rw [ht, if_neg (by simp only [later]; omega), if_neg]
      have h' : ¬ (s.now + d - (later d s).last ≥ (later d s).interval) := by simp only [later]; omega
      simp [h']
    have : irq (d :: ds) s = irq ds (update (later d s)) := rfl
    rw [this, e, ih (later d s) h1 (by simp only [later]; omega) (by simp only [later]; omega) h4 (by simp only [later]; omega),
      later_later]

/-- **C117.** Interrupts between the statements that begin a blink, as many as there may be, change nothing as long as
the statements take less than one interval (and a second): the effect is that of an undivided beginning at some moment
in between. -/
theorem C117_interrupt_start (s : St) (sec : UInt8) (i : UInt32) (d1 d2 d3 d4 d5 : List Nat) (hb : isBlinking s = false)
    (hd : s.on = s.cfg) (ht : s.now + d1.sum ≤ lastMoment)
    (hf : d2.sum + d3.sum + d4.sum + d5.sum < i.toNat) (hq : d2.sum + d3.sum + d4.sum + d5.sum ≤ 1000) :
    startIrq s sec i d1 d2 d3 d4 d5 =
      later (d2.sum + d3.sum + d4.sum + d5.sum) (start (later d1.sum s) sec i) := by
  have h0 : s.timeout = 0 := by simpa [isBlinking] using hb
  have hs := sec.toNat_lt
  have hz : sec ≠ 0 → sec.toNat ≠ 0 := fun h e => h (UInt8.toNat_inj.mp e)
  obtain ⟨n, l, t, iv, o, c, q, f⟩ := s
  simp only at h0 hd ht
  subst h0 hd
  unfold lastMoment at ht
  have htick : (later d1.sum ⟨n, l, 0, iv, o, o, q, f⟩).tick = n + d1.sum := by simp only [St.tick, later]; omega
  have hb' : isBlinking (later d1.sum ⟨n, l, 0, iv, o, o, q, f⟩) = false := rfl
  unfold startIrq start
  rw [hb, hb']
  simp only [Bool.false_eq_true, if_false]
  rw [irq_dark d1 _ rfl rfl, htick]
  simp only [later]
  rw [irq_dark d2 _ rfl rfl]
  simp only [later]
  rw [irq_dark d3 _ rfl rfl]
  simp only [later]
  by_cases h : sec = 0
  · rw [if_pos h, if_pos h]
    rw [irq_lit d4 _ (by simp) (by simp; omega) (by simp; omega) (by simp) (by simp; omega)]
    simp only [later, toggle]
    rw [irq_lit d5 _ (by simp) (by simp; omega) (by simp; omega) (by simp) (by simp; omega)]
    simp only [later, Nat.add_assoc]
  · have := hz h
    have hm : (n + d1.sum + sec.toNat * 1000) % 2 ^ 32 = n + d1.sum + sec.toNat * 1000 := by omega
    rw [if_neg h, if_neg h]
    simp only [hm]
    rw [irq_lit d4 _ (by simp only; omega) (by simp only; omega) (by simp only; omega) (by simp only; omega) (by simp only; omega)]
    simp only [later, toggle]
    rw [irq_lit d5 _ (by simp only; omega) (by simp only; omega) (by simp only; omega) (by simp only; omega) (by simp only; omega)]
    simp only [later, Nat.add_assoc]

/-- **C117.** Interrupts between the statements that end a blink change nothing. -/
theorem C117_interrupt_stop (s : St) (d1 d2 : List Nat) : stopIrq s d1 d2 = later (d1.sum + d2.sum) (stop s) := by
  have key : ∀ (ds : List Nat) (s : St), s.timeout = 0 →
      ∃ o, irq ds s = { later ds.sum s with on := o } := by
    intro ds
    induction ds with
    | nil => intro s _; exact ⟨s.on, by simp [irq, later]⟩
    | cons d ds ih =>
      intro s h
      have e : ∃ o, update (later d s) = { later d s with on := o } := by
        unfold update
        split
        · exact ⟨s.cfg, by simp [stop, later, h]⟩
        · exact ⟨s.on, by simp [isBlinking, later, h]⟩
      obtain ⟨o, e⟩ := e
      obtain ⟨o', e'⟩ := ih { later d s with on := o } h
      have : irq (d :: ds) s = irq ds (update (later d s)) := rfl
      refine ⟨o', ?_⟩
      rw [this, e, e']
      simp [later, Nat.add_assoc]
  unfold stopIrq
  obtain ⟨o, e⟩ := key d1 { s with timeout := 0 } rfl
  simp only
  rw [e, irq_dark d2 _ rfl rfl]
  simp [later, stop, Nat.add_assoc]

/-! ### Concrete cases -/

namespace Ex

/-- A wink of one second that is over. -/
def wink : List Op := [.pass 5000, .start 1 50, .pass 50, .update, .pass 60, .update, .pass 1000, .update]

example : time wink ≤ lastMoment := by decide +kernel
example : (run (init false) (wink.take 2)).on = true ∧ (run (init false) (wink.take 4)).on = false ∧
    (run (init false) (wink.take 6)).on = true ∧ (run (init false) wink).on = false := by decide +kernel
/-- A touch long after the wink is for the keyboard; one during it is not. -/
example : allowKbd (run (init false) (wink ++ [.pass 1000, .touch true])) = true ∧
    allowKbd (run (init false) (wink.take 4 ++ [.touch true])) = false := by decide +kernel
/-- A device that was used for 49 days: the touch of a minute later, with all updates in between, is for nobody; on the
first day it is for the keyboard. -/
example : allowKbd (run (init false) [.pass (2 ^ 32 - 100), .ask 0 false, .stop, .pass 60000, .update, .touch true]) = false ∧
    allowKbd (run (init false) [.pass 100000, .ask 0 false, .stop, .pass 60000, .update, .touch true]) = true := by
  decide +kernel
/-- A wink that begins between two interrupts of a millisecond each. -/
example : startIrq (run (init false) [.pass 5000]) 1 50 [1] [] [1] [] [] = later 1 (start (run (init false) [.pass 5001]) 1 50) := by
  decide +kernel
/-- The hypotheses of `C117_ends`. -/
example : isBlinking (run (init true) [.pass 5000]) = false ∧ (1 : UInt8).toNat * 1000 < time [.pass 400, .update, .pass 700] := by
  decide +kernel

end Ex

end Verif.Led
