import Verif.Spec.Kbd
/-
C24: the keyboard types exactly the text of the touch slot.
-/
namespace Verif.Kbd
open Verif.Spec.Kbd

/-! ### The reports of one character -/

/-- Press of a character. -/
def downB (c : Byte) : Bytes :=
  if c = 0x03 then [2, 0xB8]
  else if ascii2keycode c &&& 0x80 ≠ 0 then [1, 2, 0, ascii2keycode c &&& 0x7F, 0, 0, 0, 0]
  else [1, 0, 0, ascii2keycode c, 0, 0, 0, 0]
/-- Release of a character. -/
def upB (c : Byte) : Bytes := if c = 0x03 then [2, 0] else [1, 0, 0, 0, 0, 0, 0, 0]
/-- Both. -/
def keysOf (c : Byte) : List Bytes := [downB c, upB c]
/-- The part of a text in front of a NUL character. -/
def eff (t : Bytes) : Bytes := t.takeWhile (· ≠ 0)

theorem typed_down : ∀ c : Byte, typed [] (downB c) = if Mappable c then [c] else [] := by decide +kernel
theorem typed_up : ∀ c : Byte, ∀ h, typed h (upB c) = [] := by
  intro c h; unfold upB; split <;> rfl
theorem holds_keys (c : Byte) : holds (holds [] (downB c)) (upB c) = [] := by
  unfold upB; split
  · next h => subst h; rfl
  · rfl
theorem released_up (c : Byte) : Released (upB c) := by
  unfold upB; split
  · exact .inr rfl
  · exact .inl rfl

theorem hostText_append (h : Bytes) (a b : List Bytes) :
    hostText h (a ++ b) = hostText h a ++ hostText (heldAfter h a) b := by
  induction a generalizing h with
  | nil => rfl
  | cons r a ih => simp [hostText, heldAfter, ih]

theorem heldAfter_append (h : Bytes) (a b : List Bytes) :
    heldAfter h (a ++ b) = heldAfter (heldAfter h a) b := by
  induction a generalizing h with
  | nil => rfl
  | cons r a ih => simp [heldAfter, ih]

theorem host_keys (t : Bytes) : hostText [] (t.flatMap keysOf) = t.filter (fun c => decide (Mappable c)) ∧
    heldAfter [] (t.flatMap keysOf) = [] := by
  induction t with
  | nil => exact ⟨rfl, rfl⟩
  | cons c t ih =>
    have h1 : hostText [] (keysOf c) = if Mappable c then [c] else [] := by
      simp [keysOf, hostText, typed_down, typed_up]
    have h2 : heldAfter [] (keysOf c) = [] := by simp [keysOf, heldAfter, holds_keys]
    rw [List.flatMap_cons, hostText_append, heldAfter_append, h1, h2, ih.1, ih.2]
    refine ⟨?_, rfl⟩
    by_cases h : Mappable c <;> simp [h]

/-! ### The invariant -/

/-- The reports of complete texts. -/
def allKeys (l : List Bytes) : List Bytes := l.flatMap fun t => (eff t).flatMap keysOf

def Inv (s : St) (o : List Out) : Prop :=
  s.buf.length = 34 ∧
  match s.phase with
  | .idle => sent o = allKeys (started o)
  | .down => ∃ done cur rest ch, started o = done ++ [cur] ∧ s.buf = eff cur ++ 0 :: rest ∧
      (eff cur)[s.pos]? = some ch ∧ sent o = allKeys done ++ ((eff cur).take s.pos).flatMap keysOf ++ [downB ch]
  | _ => ∃ done cur rest, started o = done ++ [cur] ∧ s.buf = eff cur ++ 0 :: rest ∧
      s.pos ≤ (eff cur).length ∧ sent o = allKeys done ++ ((eff cur).take s.pos).flatMap keysOf

theorem sent_append (a b : List Out) : sent (a ++ b) = sent a ++ sent b := by simp [sent]
theorem started_append (a b : List Out) : started (a ++ b) = started a ++ started b := by simp [started]

theorem allKeys_snoc (l : List Bytes) (t : Bytes) : allKeys (l ++ [t]) = allKeys l ++ (eff t).flatMap keysOf := by
  simp [allKeys]

theorem eff_nil_free {t : Bytes} : ∀ c ∈ eff t, c ≠ 0 := by
  unfold eff
  induction t with
  | nil => intro c hc; simp at hc
  | cons a t ih =>
    intro c hc
    by_cases h : a = 0
    · simp [h] at hc
    · simp only [List.takeWhile_cons, ne_eq, h, not_false_eq_true, decide_true, if_true, List.mem_cons] at hc
      rcases hc with rfl | hc
      · exact h
      · exact ih c hc

theorem eff_self {t : Bytes} (h : ∀ c ∈ t, c ≠ 0) : eff t = t := by
  unfold eff
  induction t with
  | nil => rfl
  | cons a t ih =>
    simp only [List.takeWhile_cons, ne_eq, h a (by simp), not_false_eq_true, decide_true, if_true]
    rw [ih (fun c hc => h c (by simp [hc]))]

theorem rd_eff {cur rest b : Bytes} {pos : Nat} (hb : b = eff cur ++ 0 :: rest) (h : pos ≤ (eff cur).length) :
    rd b pos = .ok ((eff cur)[pos]?.getD 0) := by
  subst hb
  unfold rd
  rcases Nat.lt_or_ge pos (eff cur).length with h' | h'
  · rw [List.getElem?_append_left h', List.getElem?_eq_getElem h']; rfl
  · have : pos = (eff cur).length := by omega
    subst this
    simp

theorem take_snoc {t : Bytes} {pos : Nat} {c : Byte} (h : t[pos]? = some c) :
    t.take (pos + 1) = t.take pos ++ [c] := by
  rw [List.take_add_one, h]; rfl

theorem press_eq (s : St) (ch : Byte) : ∃ r, press s ch =
    ({ s with report := r, busy := true, phase := .down }, [.send (downB ch)]) := by
  unfold press downB
  by_cases h : ch = 3
  · refine ⟨{ s.report with id := 2, modifier := 0xB8 }, ?_⟩
    simp [h, send, Report.bytes]
  · by_cases h2 : ascii2keycode ch &&& 0x80 ≠ 0
    · refine ⟨{ s.report with modifier := 0x02, keycode := ascii2keycode ch &&& 0x7F, id := 1 }, ?_⟩
      simp [h, h2, send, Report.bytes]
    · refine ⟨{ s.report with modifier := 0, keycode := ascii2keycode ch, id := 1 }, ?_⟩
      have h2 : ascii2keycode ch &&& 0x80 = 0 := Decidable.of_not_not h2
      simp [h, h2, send, Report.bytes]

theorem release_eq (s : St) (ch : Byte) : ∃ r, release s ch =
    ({ s with report := r, busy := true, pos := s.pos + 1, phase := .up }, [.send (upB ch)]) := by
  unfold release upB
  by_cases h : ch = 3
  · exact ⟨⟨2, 0, 0⟩, by simp [h, send, Report.bytes]⟩
  · exact ⟨⟨1, 0, 0⟩, by simp [h, send, Report.bytes]⟩

theorem begin_eq {s : St} (hb : s.buf.length = 34) {t : Bytes} (ht : t.length ≤ 33) (hne : t ≠ []) :
    ∃ rest, begin s t = .ok ({ s with buf := t ++ 0 :: rest, pos := 0, phase := .typing }, [.start t]) ∧
      (t ++ 0 :: rest).length = 34 := by
  have hl : t.length ≠ 0 := by simpa using hne
  refine ⟨s.buf.drop (t.length + 1), ?_, by simp; omega⟩
  unfold begin
  rw [wrRange_ok (by omega)]
  simp only [ok_bind, hl, if_false, List.take_zero, List.nil_append, Nat.zero_add]
  unfold wr
  rw [if_pos (by simp; omega)]
  simp only [ok_bind, pure_eq_ok]
  congr 3
  rw [List.set_append_right _ _ (by omega), Nat.sub_self]
  congr 1
  rw [List.drop_eq_getElem_cons (by omega : t.length < s.buf.length)]
  rfl

theorem eff_split (t rest : Bytes) : ∃ rest', t ++ 0 :: rest = eff t ++ 0 :: rest' := by
  unfold eff
  induction t with
  | nil => exact ⟨rest, rfl⟩
  | cons c t ih =>
    by_cases h : c = 0
    · subst h; exact ⟨t ++ 0 :: rest, by simp⟩
    · obtain ⟨r, hr⟩ := ih
      exact ⟨r, by simp [h] at hr ⊢; exact hr⟩

/-- One event keeps the invariant and is defined. -/
theorem inv_step {s : St} {o : List Out} (h : Inv s o) {e : Ev} (he : Ordinary e) :
    ∃ s' o', step s e = .ok (s', o') ∧ Inv s' (o ++ o') := by
  obtain ⟨hb, h⟩ := h
  have quiet : ∀ s' : St, s'.buf = s.buf → s'.phase = s.phase → s'.pos = s.pos → Inv s' (o ++ []) := by
    intro s' h1 h2 h3
    unfold Inv
    rw [h1, h2, h3, List.append_nil]
    exact ⟨hb, h⟩
  have typing : s.phase ≠ .idle → ∃ s' o', typeKeySeq s = .ok (s', o') ∧ Inv s' (o ++ o') := by
    intro hi
    have tu : (s.phase = .typing ∨ s.phase = .up) → (∃ done cur rest, started o = done ++ [cur] ∧
        s.buf = eff cur ++ 0 :: rest ∧ s.pos ≤ (eff cur).length ∧
        sent o = allKeys done ++ ((eff cur).take s.pos).flatMap keysOf) →
        ∃ s' o', (do
          let ch ← rd s.buf s.pos
          if ch = 0 then return ({ s with phase := .idle }, [])
          else if s.busy then return (s, [])
          else return press s ch : C (St × List Out)) = .ok (s', o') ∧ Inv s' (o ++ o') := by
      rintro hp ⟨done, cur, rest, h1, h2, h3, h4⟩
      rw [rd_eff h2 h3, ok_bind]
      rcases Nat.lt_or_ge s.pos (eff cur).length with hlt | hge
      · have hg : (eff cur)[s.pos]? = some (eff cur)[s.pos] := List.getElem?_eq_getElem hlt
        have hne : (eff cur)[s.pos] ≠ 0 := eff_nil_free _ (List.getElem_mem hlt)
        simp only [hg, Option.getD_some, hne, if_false]
        by_cases hbz : s.busy = true
        · exact ⟨s, [], by simp [hbz], quiet s rfl rfl rfl⟩
        · obtain ⟨r, hr⟩ := press_eq s (eff cur)[s.pos]
          refine ⟨{ s with report := r, busy := true, phase := .down }, [.send (downB (eff cur)[s.pos])],
            by simp only [hbz]; rw [hr]; rfl, hb, ?_⟩
          refine ⟨done, cur, rest, _, ?_, h2, hg, ?_⟩
          · rw [started_append, h1]; simp [started]
          · rw [sent_append, h4]; simp [sent]
      · rw [List.getElem?_eq_none (by omega)]
        refine ⟨_, _, rfl, hb, ?_⟩
        rw [List.append_nil, h4, h1, allKeys_snoc, List.take_of_length_le (by omega)]
    unfold typeKeySeq
    cases hp : s.phase with
    | idle => exact absurd hp hi
    | typing => rw [hp] at h; exact tu (.inl hp) h
    | up => rw [hp] at h; exact tu (.inr hp) h
    | down =>
      rw [hp] at h
      obtain ⟨done, cur, rest, ch, h1, h2, h3, h4⟩ := h
      have hlt : s.pos < (eff cur).length := (List.getElem?_eq_some_iff.mp h3).1
      by_cases hbz : s.busy = true
      · exact ⟨s, [], by simp [hbz], quiet s rfl rfl rfl⟩
      · simp only [hbz]
        rw [rd_eff h2 (by omega), h3]
        obtain ⟨r, hr⟩ := release_eq s ch
        refine ⟨{ s with report := r, busy := true, pos := s.pos + 1, phase := .up }, [.send (upB ch)],
          by simp only [ok_bind, Option.getD_some]; rw [hr]; rfl, hb, ?_⟩
        refine ⟨done, cur, rest, ?_, h2, by show s.pos + 1 ≤ _; omega, ?_⟩
        · rw [started_append, h1]; simp [started]
        · show _ = _ ++ List.flatMap keysOf ((eff cur).take (s.pos + 1))
          rw [sent_append, h4, take_snoc h3]; simp [sent, keysOf]
  cases e with
  | dataIn => exact ⟨_, _, rfl, quiet _ rfl rfl rfl⟩
  | eject => exact he.elim
  | reset => exact he.elim
  | tick touch =>
    by_cases hi : s.phase = .idle
    · simp only [step, hi]
      match touch, he with
      | none, _ => exact ⟨s, [], by simp [typeKeySeq, hi], quiet s rfl rfl rfl⟩
      | some none, _ => exact ⟨s, [], rfl, quiet s rfl rfl rfl⟩
      | some (some t), he =>
        have he : t.length ≤ 33 := he
        by_cases ht : t = []
        · subst ht
          refine ⟨s, [], ?_, quiet s rfl rfl rfl⟩
          simp only [begin]
          rw [wrRange_ok (by simp)]
          simp
        · obtain ⟨rest, hr, hlen⟩ := begin_eq hb he ht
          obtain ⟨rest', hr'⟩ := eff_split t rest
          refine ⟨_, _, hr, hlen, ?_⟩
          rw [hi] at h
          refine ⟨started o, t, rest', ?_, hr', Nat.zero_le _, ?_⟩
          · simp [started]
          · rw [sent_append, h]; simp [sent]
    · obtain ⟨s', o', h1, h2⟩ := typing hi
      refine ⟨s', o', ?_, h2⟩
      rw [← h1]
      cases hp : s.phase with
      | idle => exact absurd hp hi
      | _ => simp only [step, hp]

theorem inv_run {s : St} {o : List Out} (h : Inv s o) (es : List Ev) (he : ∀ e ∈ es, Ordinary e) :
    ∃ s' o', run s es = .ok (s', o') ∧ Inv s' (o ++ o') := by
  induction es generalizing s o with
  | nil => exact ⟨s, [], rfl, by simpa using h⟩
  | cons e es ih =>
    obtain ⟨s1, o1, h1, h2⟩ := inv_step h (he e (by simp))
    obtain ⟨s2, o2, h3, h4⟩ := ih h2 (fun e h => he e (by simp [h]))
    exact ⟨s2, o1 ++ o2, by simp [run, h1, h3], by simpa using h4⟩

theorem inv_init : Inv init [] := ⟨rfl, rfl⟩

theorem run_append (a b : List Ev) (s : St) : run s (a ++ b) = (do
    let (s', o) ← run s a
    let (s'', o') ← run s' b
    return (s'', o ++ o') : C (St × List Out)) := by
  induction a generalizing s with
  | nil => simp only [List.nil_append, run, pure_eq_ok, ok_bind]; cases run s b <;> rfl
  | cons e a ih =>
    simp only [List.cons_append, run, ih]
    cases step s e with
    | error u => rfl
    | ok p =>
      simp only [ok_bind]
      cases run p.1 a with
      | error u => rfl
      | ok q =>
        simp only [ok_bind, pure_eq_ok]
        cases run q.1 b with
        | error u => rfl
        | ok r => simp

/-! ### Properties -/

/-- C24. No schedule makes the interface access memory outside its buffer (texts of at most 32 characters
and Enter). -/
theorem C24_safe (es : List Ev) (he : ∀ e ∈ es, Ordinary e) : ∃ s o, run init es = .ok (s, o) := by
  obtain ⟨s, o, h, _⟩ := inv_run inv_init es he
  exact ⟨s, o, h⟩

theorem between_keys (t : Bytes) : ReleasedBetween (t.flatMap keysOf) ∧
    ∀ a, (t.flatMap keysOf).getLast? = some a → Released a := by
  induction t with
  | nil => exact ⟨fun i a b h => by simp at h, fun a h => by simp at h⟩
  | cons c t ih =>
    have hx : (c :: t).flatMap keysOf = downB c :: upB c :: t.flatMap keysOf := by simp [keysOf]
    constructor
    · rw [hx]
      intro i a b ha hb hna
      match i with
      | 0 => simp at ha hb; subst hb; exact released_up c
      | 1 => simp at ha; subst ha; exact absurd (released_up c) hna
      | i + 2 => exact ih.1 i a b (by simpa using ha) (by simpa using hb) hna
    · intro a ha
      rw [hx] at ha
      match hk : t.flatMap keysOf with
      | [] => rw [hk] at ha; simp at ha; subst ha; exact released_up c
      | b :: l => exact ih.2 a (by rw [hk] at ha ⊢; simpa [List.getLast?_cons_cons] using ha)

theorem allKeys_eq (l : List Bytes) : allKeys l = (l.flatMap eff).flatMap keysOf := by
  simp [allKeys, List.flatMap_assoc]

theorem between_snoc {l : List Bytes} (h : ReleasedBetween l) (hl : ∀ a, l.getLast? = some a → Released a)
    (d : Bytes) : ReleasedBetween (l ++ [d]) := by
  intro i a b ha hb hna
  have hi : i + 1 < (l ++ [d]).length := (List.getElem?_eq_some_iff.mp hb).1
  simp at hi
  rw [List.getElem?_append_left (by omega)] at ha
  rcases Nat.lt_or_ge (i + 1) l.length with h' | h'
  · rw [List.getElem?_append_left h'] at hb; exact h i a b ha hb hna
  · refine absurd (hl a ?_) hna
    rw [List.getLast?_eq_getElem?, ← ha]
    congr 1
    omega

/-- What has been sent at any time: all started texts up to some point, and possibly one press. -/
theorem inv_sent {s : St} {o : List Out} (h : Inv s o) :
    (∃ a b, (started o).flatMap eff = a ++ b ∧ sent o = a.flatMap keysOf ∧ (s.phase = .idle → b = [])) ∨
    (∃ a c b, (started o).flatMap eff = a ++ c :: b ∧ sent o = a.flatMap keysOf ++ [downB c] ∧ s.phase = .down) := by
  obtain ⟨_, h⟩ := h
  cases hp : s.phase with
  | idle =>
    rw [hp] at h
    exact .inl ⟨_, [], (List.append_nil _).symm, by rw [h, allKeys_eq], fun _ => rfl⟩
  | down =>
    rw [hp] at h
    obtain ⟨done, cur, rest, ch, h1, h2, h3, h4⟩ := h
    refine .inr ⟨done.flatMap eff ++ (eff cur).take s.pos, ch, (eff cur).drop (s.pos + 1), ?_, ?_, rfl⟩
    · obtain ⟨hl, hc⟩ := List.getElem?_eq_some_iff.mp h3
      rw [h1, List.flatMap_append, List.append_assoc]
      congr 1
      rw [← hc, List.getElem_cons_drop]
      simp
    · rw [h4, allKeys_eq]; simp
  | typing =>
    rw [hp] at h
    obtain ⟨done, cur, rest, h1, h2, h3, h4⟩ := h
    refine .inl ⟨done.flatMap eff ++ (eff cur).take s.pos, (eff cur).drop s.pos, ?_, ?_, fun h => by cases h⟩
    · rw [h1]; simp
    · rw [h4, allKeys_eq]; simp
  | up =>
    rw [hp] at h
    obtain ⟨done, cur, rest, h1, h2, h3, h4⟩ := h
    refine .inl ⟨done.flatMap eff ++ (eff cur).take s.pos, (eff cur).drop s.pos, ?_, ?_, fun h => by cases h⟩
    · rw [h1]; simp
    · rw [h4, allKeys_eq]; simp

/-- C24 in general, for arbitrary bytes: the host sees a beginning of the typeable characters of the
started texts, each text cut at a NUL; all of them once the interface is idle. -/
theorem C24_types_typeable (es : List Ev) (he : ∀ e ∈ es, Ordinary e) {s : St} {o : List Out}
    (hr : run init es = .ok (s, o)) :
    let want := ((started o).flatMap fun t => t.takeWhile (· ≠ 0)).filter fun c => decide (Mappable c)
    hostText [] (sent o) <+: want ∧ ReleasedBetween (sent o) ∧
    (s.phase = .idle → hostText [] (sent o) = want ∧ heldAfter [] (sent o) = [] ∧
      ∀ a, (sent o).getLast? = some a → Released a) := by
  obtain ⟨s', o', h, hinv⟩ := inv_run inv_init es he
  rw [hr] at h
  cases h
  simp only [List.nil_append] at hinv
  intro want
  have hwant : want = ((started o).flatMap eff).filter fun c => decide (Mappable c) := rfl
  rcases inv_sent hinv with ⟨a, b, h1, h2, h3⟩ | ⟨a, c, b, h1, h2, h3⟩
  · have hk := host_keys a
    have hbt := between_keys a
    rw [hwant, h1, List.filter_append, h2, hk.1, hk.2]
    refine ⟨⟨_, rfl⟩, hbt.1, fun hi => ?_⟩
    rw [h3 hi]
    exact ⟨by simp, rfl, hbt.2⟩
  · have hk := host_keys a
    have hbt := between_keys a
    rw [hwant, h1, List.filter_append, h2, hostText_append, hk.1, hk.2]
    refine ⟨?_, between_snoc hbt.1 hbt.2 _, fun hi => by rw [hi] at h3; cases h3⟩
    simp only [hostText, typed_down, List.append_nil]
    by_cases hm : Mappable c
    · rw [if_pos hm, List.filter_cons_of_pos (by simpa using hm)]
      exact ⟨List.filter (fun c => decide (Mappable c)) b, by simp⟩
    · rw [if_neg hm]; exact ⟨_, by simp; rfl⟩

theorem typeable_id {l : List Bytes} (h : ∀ t ∈ l, ∀ c ∈ t, Mappable c) :
    (l.flatMap fun t => t.takeWhile (· ≠ 0)).filter (fun c => decide (Mappable c)) = l.flatten := by
  have hz : ∀ c, Mappable c → c ≠ 0 := by decide +kernel
  induction l with
  | nil => rfl
  | cons t l ih =>
    rw [List.flatMap_cons, List.filter_append, ih (fun t ht => h t (by simp [ht])), List.flatten_cons]
    congr 1
    have ht := h t (by simp)
    have h1 : t.takeWhile (· ≠ 0) = t := eff_self fun c hc => hz c (ht c hc)
    rw [h1, List.filter_eq_self]
    intro c hc; simpa using ht c hc

/-- C24. For texts of typeable characters, under every schedule of main loop runs, touches and transfer
completions: at any time the host has seen a beginning of the started texts, in order; every press is
followed by a release before the next press; and when the interface is idle again, the host has seen
exactly the texts and no key is held. -/
theorem C24_types_exactly (es : List Ev) (he : ∀ e ∈ es, Ordinary e) {s : St} {o : List Out}
    (hr : run init es = .ok (s, o)) (hm : ∀ t ∈ started o, ∀ c ∈ t, Mappable c) :
    hostText [] (sent o) <+: (started o).flatten ∧ ReleasedBetween (sent o) ∧
    (s.phase = .idle → hostText [] (sent o) = (started o).flatten ∧ heldAfter [] (sent o) = [] ∧
      ∀ a, (sent o).getLast? = some a → Released a) := by
  have := C24_types_typeable es he hr
  simp only [typeable_id hm] at this
  exact this

/-- C24. A touch in the idle state starts typing its text. -/
theorem C24_touch_starts (es : List Ev) (he : ∀ e ∈ es, Ordinary e) {s : St} {o : List Out}
    (hr : run init es = .ok (s, o)) (hi : s.phase = .idle) {t : Bytes} (ht : t ≠ []) (hl : t.length ≤ 33) :
    ∃ s', run init (es ++ [.tick (some (some t))]) = .ok (s', o ++ [.start t]) := by
  obtain ⟨s1, o1, h, hinv⟩ := inv_run inv_init es he
  rw [hr] at h
  cases h
  obtain ⟨rest, hb, _⟩ := begin_eq hinv.1 hl ht
  refine ⟨{ s with buf := t ++ 0 :: rest, pos := 0, phase := .typing }, ?_⟩
  rw [run_append, hr, ok_bind]
  simp only [run, step, hi, hb, ok_bind]
  rfl

/-- Steps left until idle. -/
def left (s : St) (n : Nat) : Nat :=
  match s.phase with
  | .idle => 0
  | .down => 2 * (n - s.pos)
  | _ => 2 * (n - s.pos) + 1

theorem beat_progress {s : St} {o : List Out} (h : Inv s o) : ∃ s' o', run s beat = .ok (s', o') ∧
    Inv s' (o ++ o') ∧ started o' = [] ∧ (s.phase = .idle → s'.phase = .idle) ∧
    ∀ n, (s.phase ≠ .idle → ∃ cur rest, s.buf = eff cur ++ 0 :: rest ∧ n = (eff cur).length ∧ s.pos ≤ n ∧
      (s.phase = .down → s.pos < n)) →
      left s' n ≤ left s n - 1 ∧ (s'.phase ≠ .idle → ∃ cur rest, s'.buf = eff cur ++ 0 :: rest ∧
        n = (eff cur).length ∧ s'.pos ≤ n ∧ (s'.phase = .down → s'.pos < n)) := by
  obtain ⟨s', o', h1, h2⟩ := inv_run h beat (by simp [beat, Ordinary])
  refine ⟨s', o', h1, h2, ?_⟩
  simp only [beat, run, step, ok_bind, pure_eq_ok] at h1
  cases hp : s.phase with
  | idle =>
    simp only [hp, typeKeySeq, ok_bind, pure_eq_ok] at h1
    cases h1
    exact ⟨rfl, fun _ => rfl, fun n _ => ⟨by simp [left], fun h => absurd rfl h⟩⟩
  | down =>
    have hi := h.2
    rw [hp] at hi
    obtain ⟨done, cur, rest, ch, hd1, hd2, hd3, hd4⟩ := hi
    have hlt : s.pos < (eff cur).length := (List.getElem?_eq_some_iff.mp hd3).1
    obtain ⟨r, hr⟩ := release_eq { s with busy := false } ch
    simp only [hp, typeKeySeq, ok_bind, pure_eq_ok] at h1
    rw [rd_eff hd2 (by omega), hd3] at h1
    simp only [ok_bind, Option.getD_some] at h1
    simp only [hp] at hr
    rw [hr] at h1
    cases h1
    refine ⟨rfl, fun h => by (cases h), fun n hn => ?_⟩
    obtain ⟨cur', rest', h3, h4, h5, h6⟩ := hn (by simp)
    have := h6 rfl
    exact ⟨by simp only [left, hp]; omega, fun _ => ⟨cur', rest', h3, h4, by show s.pos + 1 ≤ n; omega, fun h => by cases h⟩⟩
  | typing | up =>
    have hi := h.2
    rw [hp] at hi
    obtain ⟨done, cur, rest, hd1, hd2, hd3, hd4⟩ := hi
    simp only [hp, typeKeySeq, ok_bind, pure_eq_ok] at h1
    rw [rd_eff hd2 hd3] at h1
    simp only [ok_bind] at h1
    rcases Nat.lt_or_ge s.pos (eff cur).length with hlt | hge
    · have hg : (eff cur)[s.pos]? = some (eff cur)[s.pos] := List.getElem?_eq_getElem hlt
      have hne : (eff cur)[s.pos] ≠ 0 := eff_nil_free _ (List.getElem_mem hlt)
      obtain ⟨r, hr⟩ := press_eq { s with busy := false } (eff cur)[s.pos]
      simp only [hp] at hr
      simp only [hg, Option.getD_some, hne, if_false] at h1
      rw [hr] at h1
      cases h1
      refine ⟨rfl, fun h => by (cases h), fun n hn => ?_⟩
      obtain ⟨cur', rest', h3, h4, h5, h6⟩ := hn (by simp)
      have hsame : (eff cur').length = (eff cur).length := by
        have e1 := hd2.symm.trans h3
        have : eff cur = eff cur' := by
          have t1 : (eff cur ++ 0 :: rest).takeWhile (· ≠ 0) = eff cur := by
            rw [List.takeWhile_append_of_pos (by intro c hc; simpa using eff_nil_free c hc)]; simp
          have t2 : (eff cur' ++ 0 :: rest').takeWhile (· ≠ 0) = eff cur' := by
            rw [List.takeWhile_append_of_pos (by intro c hc; simpa using eff_nil_free c hc)]; simp
          rw [← t1, e1, t2]
        rw [this]
      exact ⟨by simp only [left, hp]; omega, fun _ => ⟨cur', rest', h3, h4, h5, fun _ => by show s.pos < n; omega⟩⟩
    · rw [List.getElem?_eq_none (by omega)] at h1
      simp only [Option.getD_none, if_true] at h1
      cases h1
      exact ⟨rfl, fun _ => rfl, fun n hn => ⟨by simp [left], fun h => absurd rfl h⟩⟩

/-- C24. Typing always finishes: whatever happened before, once the host takes reports and the main loop
runs, at most 67 rounds make the interface idle, without starting anything new. -/
theorem C24_finishes (es : List Ev) (he : ∀ e ∈ es, Ordinary e) {s : St} {o : List Out}
    (hr : run init es = .ok (s, o)) : ∃ s' o', run s (List.replicate 67 beat).flatten = .ok (s', o') ∧
      s'.phase = .idle ∧ started o' = [] := by
  obtain ⟨s1, o1, h, hinv⟩ := inv_run inv_init es he
  rw [hr] at h
  cases h
  simp only [List.nil_append] at hinv
  have key : ∀ k (s : St) (o : List Out) (n : Nat), Inv s o → left s n ≤ k →
      (s.phase ≠ .idle → ∃ cur rest, s.buf = eff cur ++ 0 :: rest ∧ n = (eff cur).length ∧ s.pos ≤ n ∧
        (s.phase = .down → s.pos < n)) →
      ∃ s' o', run s (List.replicate k beat).flatten = .ok (s', o') ∧ s'.phase = .idle ∧ started o' = [] := by
    intro k
    induction k with
    | zero =>
      intro s o n hI hl hs
      refine ⟨s, [], rfl, ?_, rfl⟩
      cases hp : s.phase with
      | idle => rfl
      | down =>
        obtain ⟨_, _, _, _, _, h6⟩ := hs (by simp [hp])
        have := h6 hp
        simp only [left, hp] at hl; omega
      | _ => simp only [left, hp] at hl; omega
    | succ k ih =>
      intro s o n hI hl hs
      obtain ⟨s1, o1, h1, h2, h3, h4, h5⟩ := beat_progress hI
      obtain ⟨h6, h7⟩ := h5 n hs
      obtain ⟨s2, o2, h8, h9, h10⟩ := ih s1 (o ++ o1) n h2 (by omega) h7
      refine ⟨s2, o1 ++ o2, ?_, h9, by rw [started_append, h3, h10]; rfl⟩
      rw [List.replicate_succ, List.flatten_cons, run_append, h1, ok_bind]
      simp only [h8, ok_bind, pure_eq_ok]
  -- the length of the current text
  have hlen : ∃ n, left s n ≤ 67 ∧ (s.phase ≠ .idle → ∃ cur rest, s.buf = eff cur ++ 0 :: rest ∧
      n = (eff cur).length ∧ s.pos ≤ n ∧ (s.phase = .down → s.pos < n)) := by
    have hb := hinv.1
    have hi := hinv.2
    cases hp : s.phase with
    | idle => exact ⟨0, by simp [left, hp], fun h => absurd rfl h⟩
    | down =>
      rw [hp] at hi
      obtain ⟨done, cur, rest, ch, hd1, hd2, hd3, hd4⟩ := hi
      have hlt : s.pos < (eff cur).length := (List.getElem?_eq_some_iff.mp hd3).1
      rw [hd2] at hb; simp at hb
      exact ⟨_, by simp only [left, hp]; omega, fun _ => ⟨cur, rest, hd2, rfl, by omega, fun _ => hlt⟩⟩
    | typing | up =>
      rw [hp] at hi
      obtain ⟨done, cur, rest, hd1, hd2, hd3, hd4⟩ := hi
      rw [hd2] at hb; simp at hb
      exact ⟨_, by simp only [left, hp]; omega, fun _ => ⟨cur, rest, hd2, rfl, by omega, fun h => by cases h⟩⟩
  obtain ⟨n, hn1, hn2⟩ := hlen
  exact key 67 s o n hinv hn1 hn2

/-- Non-vacuity: `aA!` and Enter, with two more touches while typing, then all is idle. -/
example : ∃ es s o, (∀ e ∈ es, Ordinary e) ∧ run init es = .ok (s, o) ∧ s.phase = .idle ∧
    hostText [] (sent o) = [0x61, 0x41, 0x21, 0x0D] ∧ (sent o).length = 8 :=
  ⟨.tick (some (some [0x61, 0x41, 0x21, 0x0D])) :: .tick (some (some [0x62])) :: .tick none ::
    (List.replicate 10 beat).flatten, _, _, by
      intro e he
      simp only [List.mem_cons, List.mem_flatten, List.mem_replicate, beat] at he
      rcases he with rfl | rfl | rfl | ⟨l, ⟨_, rfl⟩, h⟩
      · show _ ≤ 33; decide
      · show _ ≤ 33; decide
      · trivial
      · simp at h; rcases h with rfl | rfl <;> trivial, rfl, by decide +kernel, by decide +kernel, by decide +kernel⟩

/-- Outside the ordinary events: the eject command (`KBDHID_Eject`) can interrupt typing between a press
and its release; the release is then never sent for the pressed key, which stays down for the host. -/
theorem C24_eject_leaves_key_down : ∃ s o,
    run init (.tick (some (some [0x61, 0x62])) :: .tick none :: .eject :: (List.replicate 10 beat).flatten) =
      .ok (s, o) ∧ s.phase = .idle ∧ heldAfter [] (sent o) = [0x04] :=
  ⟨_, _, rfl, by decide +kernel, by decide +kernel⟩

end Verif.Kbd
