import Verif.Props.Piv
/-
C31: private keys obey their PIN and touch policy.
-/
set_option linter.unusedSimpArgs false
namespace Verif.Piv
open Cmd Verif.Spec.Piv Verif.KeyFile

variable {A : Fault → Prop} {x : Ext} {i : In} {f : Flash} {r r' : Ram}

/-- A verified PIN and the time of the last touch are accounted for by the log. -/
def Inv31 (s : St) (log : List Entry) : Prop :=
  ∀ r, s.ram = some r → (r.pin.validated = true → PinShown log) ∧
    (r.pin.validated = true → r.consumed = false → PinFresh log) ∧
    (r.lastTouch = 0xFFFFFFFF ∨ TouchedAt r.lastTouch log)

/-- The user was present during this command. -/
def TouchNow (f : Flash) (i : In) (t : Nat) : Prop :=
  i.c.ins = 0x87 ∧ ∃ k m, refOf i.c.p2 = some k ∧ metaOf k f = some m ∧ (m.touch = 2 ∨ m.touch = 3) ∧ i.nfc = false ∧
    i.present = true ∧ i.tick' = t

theorem keep31 {log : List Entry} {a : Reply} (hi : Inv31 ⟨f, some r⟩ log)
    (hv : r'.pin.validated = true → (PresentsPin f (.apdu i) ∨ r.pin.validated = true) ∧
      ¬ SessionEnds (.apdu i) (.reply a) ∧ ¬ PinRevoked (.apdu i) (.reply a))
    (hf : r'.pin.validated = true → r'.consumed = false →
      (PresentsPin f (.apdu i) ∨ r.pin.validated = true ∧ r.consumed = false) ∧ ¬ KeyUsed (.apdu i) (.reply a))
    (ht : r'.lastTouch = r.lastTouch ∨ TouchNow f i r'.lastTouch) (f' : Flash) :
    Inv31 ⟨f', some r'⟩ ((⟨f, some r⟩, .apdu i, .reply a) :: log) := by
  intro r1 h1
  cases h1
  obtain ⟨h1, h2, h3⟩ := hi r rfl
  refine ⟨fun h => ?_, fun h h' => ?_, ?_⟩
  · exact ⟨(hv h).1.imp id h1, (hv h).2⟩
  · exact ⟨(hf h h').1.imp id (fun e => h2 e.1 e.2), (hv h).2.1, (hv h).2.2, (hf h h').2⟩
  · rcases ht with e | ⟨hi, k, m, hn⟩
    · rw [e]
      exact h3.imp id fun h => .inr ⟨h, by (intro e; cases e), by (intro _ e; cases e)⟩
    · exact .inr (.inl ⟨i, k, m, rfl, hi, hn⟩)

theorem not_revoked (h : i.c.ins ≠ 0x20 ∧ i.c.ins ≠ 0x24 ∧ i.c.ins ≠ 0x2C) {o : Out} : ¬ PinRevoked (.apdu i) o := by
  rintro ⟨j, e, h'⟩
  cases e
  rcases h' with ⟨h', _⟩ | ⟨h', _⟩ | ⟨h', _⟩ | ⟨h', _⟩
  · exact h.1 h'
  · exact h.1 h'
  · exact h.2.1 h'
  · exact h.2.2 h'

theorem not_used (h : i.c.ins ≠ 0x87) {o : Out} : ¬ KeyUsed (.apdu i) o := by
  rintro ⟨j, e, h', _⟩; cases e; exact h h'

theorem not_ok {a : Reply} (h : Failed (.done a)) : ¬ Ok (.reply a) := by
  rintro ⟨d, e⟩
  cases e
  obtain ⟨b, e, h⟩ := h
  cases e
  exact h _ rfl

theorem not_ends {a : Reply} (h : i.c.ins ≠ 0xA4 ∧ i.c.ins ≠ 0xFB ∨ Failed (.done a)) :
    ¬ SessionEnds (.apdu i) (.reply a) := by
  intro h'
  obtain ⟨e, d, hd⟩ := ends_apdu h'
  rcases h with h | h
  · exact e.elim h.1 h.2
  · exact not_ok h ⟨d, by rw [hd]⟩

theorem bad_wrong {a : Reply} (h : Bad (.done a)) : ¬ PinWrong (.reply a) := by
  rintro ⟨d, sw, e, h'⟩
  cases e
  rcases h with ⟨u, e⟩ | ⟨sw', h, e⟩
  · cases e
  · cases e
    simp only [errs, List.mem_cons, List.not_mem_nil, or_false] at h
    rcases h with rfl | rfl | rfl | rfl | rfl | rfl | rfl | rfl | rfl | rfl | rfl <;> revert h' <;> decide

theorem bad_revoked {a : Reply} (h : Bad (.done a)) : ¬ PinRevoked (.apdu i) (.reply a) := by
  rintro ⟨j, e, h'⟩
  have n1 := bad_wrong h
  have n2 := not_ok (bad_failed h)
  rcases h' with ⟨_, h'⟩ | ⟨_, _, h'⟩ | ⟨_, _, h' | h'⟩ | ⟨_, h'⟩
  · exact n1 h'
  · exact n2 h'
  · exact n1 h'
  · exact n2 h'
  · exact n2 h'

/-- A refused command that changes nothing about the PIN. -/
theorem bad31 {log : List Entry} {a : Reply} (hi : Inv31 ⟨f, some r⟩ log) (hb : Bad (.done a)) (hp : r'.pin = r.pin)
    (hc : r'.consumed = r.consumed) (ht : r'.lastTouch = r.lastTouch) (f' : Flash) :
    Inv31 ⟨f', some r'⟩ ((⟨f, some r⟩, .apdu i, .reply a) :: log) := by
  refine keep31 hi (fun h => ⟨.inr (by rw [← hp]; exact h), not_ends (.inr (bad_failed hb)), bad_revoked hb⟩) (fun h h' => ⟨.inr ⟨by rw [← hp]; exact h, by rw [← hc]; exact h'⟩, ?_⟩)
    (.inl ht) f'
  rintro ⟨_, _, _, _, h⟩
  exact not_ok (bad_failed hb) h

/-- A command that has nothing to do with the PIN. -/
theorem same31 {log : List Entry} {a : Reply} (hi : Inv31 ⟨f, some r⟩ log)
    (h : i.c.ins ∉ [0xA4, 0xFB, 0x20, 0x24, 0x2C, 0x87]) (hp : r'.pin = r.pin)
    (hc : r'.consumed = r.consumed) (ht : r'.lastTouch = r.lastTouch) (f' : Flash) :
    Inv31 ⟨f', some r'⟩ ((⟨f, some r⟩, .apdu i, .reply a) :: log) := by
  simp only [List.mem_cons, List.not_mem_nil, or_false, not_or] at h
  obtain ⟨h1, h2, h3, h4, h5, h6⟩ := h
  exact keep31 hi (fun h => ⟨.inr (by rw [← hp]; exact h), not_ends (.inl ⟨h1, h2⟩), not_revoked ⟨h3, h4, h5⟩⟩)
    (fun h h' => ⟨.inr ⟨by rw [← hp]; exact h, by rw [← hc]; exact h'⟩, not_used h6⟩) (.inl ht) f'

/-- What presenting the PIN does to the variables. -/
theorem chk_pin {d : Bytes} {e : Option Reply} {f' : Flash} (h : ChkEff A .pin d f r e f' r') :
    r'.consumed = r.consumed ∧ r'.lastTouch = r.lastTouch ∧
    (r'.pin.validated = false ∨ Shows f.pin d ∧ (e = none ∨ e = some ioErr)) := by
  cases h with
  | io => exact ⟨rfl, rfl, .inl rfl⟩
  | blocked => exact ⟨rfl, rfl, .inl rfl⟩
  | wrong => exact ⟨rfl, rfl, .inl rfl⟩
  | rightIo h => exact ⟨rfl, rfl, .inr ⟨h, .inr rfl⟩⟩
  | right h => exact ⟨rfl, rfl, .inr ⟨h, .inl rfl⟩⟩

theorem chk_puk {d : Bytes} {e : Option Reply} {f' : Flash} (h : ChkEff A .puk d f r e f' r') :
    r'.consumed = r.consumed ∧ r'.lastTouch = r.lastTouch ∧ r'.pin = r.pin := by
  cases h <;> exact ⟨rfl, rfl, rfl⟩

theorem chk_failed {w : Which} {d : Bytes} {e : Reply} {f' : Flash} (h : ChkEff A w d f r (some e) f' r') :
    Failed (.done e) := by
  cases h with
  | io => exact bad_failed bad_io
  | rightIo => exact bad_failed bad_io
  | blocked => exact ⟨_, rfl, fun d e => by cases e⟩
  | wrong q n _ _ _ _ sw hsw =>
    refine ⟨_, rfl, fun d e => ?_⟩
    cases e
    have := (n - 1).toNat_lt
    split at hsw <;> omega

theorem vtu_failed {w w' : Which} {d : Bytes} {e : Reply} {f' : Flash} (h : VtuEff A w w' d f r (some e) f' r') :
    Failed (.done e) := by
  cases h with
  | chk _ _ _ h => exact chk_failed h
  | updIo => exact bad_failed bad_io

theorem ioErr_revoked : ¬ PinRevoked (.apdu i) (.reply ioErr) := bad_revoked bad_io

theorem ioErr_used : ¬ KeyUsed (.apdu i) (.reply ioErr) := by
  rintro ⟨_, _, _, _, h⟩
  exact not_ok (bad_failed bad_io) h

theorem verify31 {log : List Entry} {a : Reply} {f' : Flash} (hi : Inv31 ⟨f, some r⟩ log) (hins : i.c.ins = 0x20)
    (h : VerifyEff A i f (pre i.c r) (.done a) f' r') :
    Inv31 ⟨f', some r'⟩ ((⟨f, some r⟩, .apdu i, .reply a) :: log) := by
  have ne : ∀ {a}, ¬ SessionEnds (.apdu i) (.reply a) := not_ends (.inl (by rw [hins]; decide))
  have nu : ∀ {o}, ¬ KeyUsed (.apdu i) o := not_used (by rw [hins]; decide)
  cases h with
  | bad _ hb => exact bad31 (r' := pre i.c r) hi hb rfl rfl rfl _
  | query hv hp =>
    have nr : ¬ PinRevoked (.apdu i) (.reply (.sw 0x9000)) := by
      rintro ⟨j, e, h'⟩
      cases e
      rcases h' with ⟨_, d, sw, e, h⟩ | ⟨_, h', _⟩ | ⟨h', _⟩ | ⟨h', _⟩
      · cases e; revert h; decide
      · rw [hp] at h'; revert h'; decide
      · rw [hins] at h'; revert h'; decide
      · rw [hins] at h'; revert h'; decide
    exact keep31 (r' := pre i.c r) hi (fun h => ⟨.inr h, ne, nr⟩) (fun h h' => ⟨.inr ⟨h, h'⟩, nu⟩) (.inl rfl) _
  | queryNo n hv hn =>
    have hv : r.pin.validated = false := hv
    exact keep31 (r' := pre i.c r) hi (fun h => by rw [show (pre i.c r).pin = r.pin from rfl, hv] at h; cases h)
      (fun h _ => by rw [show (pre i.c r).pin = r.pin from rfl, hv] at h; cases h) (.inl rfl) _
  | logout hp =>
    exact keep31 (r' := { pre i.c r with pin := ⟨false⟩, consumed := false }) hi (fun h => by cases h)
      (fun h _ => by cases h) (.inl rfl) _
  | chk e f' r' hp hp2 hl h =>
    obtain ⟨h1, h2, h3⟩ := chk_pin h
    rcases h3 with h3 | ⟨hs, h3 | h3⟩
    · exact keep31 hi (fun h => by rw [h3] at h; cases h) (fun h _ => by rw [h3] at h; cases h) (.inl h2) _
    · cases h3
    · cases h3
      have hp : PresentsPin f (.apdu i) := ⟨i, rfl, .inl hins, hp, hp2, hs⟩
      exact keep31 hi (fun _ => ⟨.inl hp, ne, ioErr_revoked⟩) (fun _ _ => ⟨.inl hp, nu⟩) (.inl h2) _
  | right f' r1 hp hp2 hl h =>
    obtain ⟨h1, h2, h3⟩ := chk_pin h
    rcases h3 with h3 | ⟨hs, _⟩
    · exact keep31 (r' := { r1 with consumed := false }) hi (fun h => by rw [show r1.pin.validated = false from h3] at h; cases h)
        (fun h _ => by rw [show r1.pin.validated = false from h3] at h; cases h) (.inl h2) _
    · have nr : ¬ PinRevoked (.apdu i) (.reply (.sw 0x9000)) := by
        rintro ⟨j, e, h'⟩
        cases e
        rcases h' with ⟨_, d, sw, e, h⟩ | ⟨_, h', _⟩ | ⟨h', _⟩ | ⟨h', _⟩
        · cases e; revert h; decide
        · rw [hp] at h'; revert h'; decide
        · rw [hins] at h'; revert h'; decide
        · rw [hins] at h'; revert h'; decide
      have hp : PresentsPin f (.apdu i) := ⟨i, rfl, .inl hins, hp, hp2, hs⟩
      exact keep31 (r' := { r1 with consumed := false }) hi (fun _ => ⟨.inl hp, ne, nr⟩) (fun _ _ => ⟨.inl hp, nu⟩) (.inl h2) _

theorem vtu_pin_none {w : Which} {d : Bytes} {f' : Flash} (h : VtuEff A w .pin d f r none f' r') :
    r'.lastTouch = r.lastTouch ∧ r'.pin.validated = false := by
  cases h with
  | ok f1 r1 h =>
    refine ⟨?_, rfl⟩
    cases w
    · exact (chk_pin h).2.1
    · exact (chk_puk h).2.1

theorem vtu_puk {d : Bytes} {e : Option Reply} {f' : Flash} (h : VtuEff A .puk .puk d f r e f' r') :
    r'.consumed = r.consumed ∧ r'.lastTouch = r.lastTouch ∧ r'.pin = r.pin := by
  cases h with
  | chk _ _ _ h => exact chk_puk h
  | updIo f1 r1 h => obtain h := chk_puk h; exact h
  | ok f1 r1 h => obtain h := chk_puk h; exact h

theorem chg31 {log : List Entry} {a : Reply} {f' : Flash} (hi : Inv31 ⟨f, some r⟩ log) (hins : i.c.ins = 0x24)
    (h : ChgEff A i f (pre i.c r) (.done a) f' r') :
    Inv31 ⟨f', some r'⟩ ((⟨f, some r⟩, .apdu i, .reply a) :: log) := by
  have ne : ∀ {a}, ¬ SessionEnds (.apdu i) (.reply a) := not_ends (.inl (by rw [hins]; decide))
  have nu : ∀ {o}, ¬ KeyUsed (.apdu i) o := not_used (by rw [hins]; decide)
  have puk : i.c.p2 = 0x81 → ∀ o, ¬ PinRevoked (.apdu i) o := by
    rintro h2 o ⟨j, e, h'⟩
    cases e
    rcases h' with ⟨h', _⟩ | ⟨h', _⟩ | ⟨_, h', _⟩ | ⟨h', _⟩
    · rw [hins] at h'; revert h'; decide
    · rw [hins] at h'; revert h'; decide
    · rw [h2] at h'; revert h'; decide
    · rw [hins] at h'; revert h'; decide
  have pukKeep : ∀ {w : Which} {e : Option Reply} {f1 f' : Flash} {r' : Ram}, w = .puk →
      i.c.p2 = (if w = .pin then 0x80 else 0x81) → VtuEff A w w i.c.data f (pre i.c r) e f1 r' →
      Inv31 ⟨f', some r'⟩ ((⟨f, some r⟩, .apdu i, .reply a) :: log) := by
    intro w e f1 f' r' hw h2 h
    subst hw
    obtain ⟨h3, h4, h5⟩ := vtu_puk h
    exact keep31 hi (fun h => ⟨.inr (by rw [h5] at h; exact h), ne, puk h2 _⟩)
      (fun h h' => ⟨.inr ⟨by rw [h5] at h; exact h, by rw [h3] at h'; exact h'⟩, nu⟩) (.inl h4) _
  have pinNone : ∀ {w : Which} {f1 f' : Flash} {r' : Ram}, w = .pin → VtuEff A w w i.c.data f (pre i.c r) none f1 r' →
      Inv31 ⟨f', some r'⟩ ((⟨f, some r⟩, .apdu i, .reply a) :: log) := by
    intro w f1 f' r' hw h
    subst hw
    obtain ⟨h1, h2⟩ := vtu_pin_none h
    exact keep31 hi (fun h => by rw [h2] at h; cases h) (fun h _ => by rw [h2] at h; cases h) (.inl h1) _
  cases h with
  | bad _ hb => exact bad31 (r' := pre i.c r) hi hb rfl rfl rfl _
  | fail w hp1 hp2 hl e f' r' h =>
    cases w with
    | puk => exact pukKeep rfl hp2 h
    | pin =>
      cases h with
      | chk e f' r' h =>
        obtain ⟨h1, h2, h3⟩ := chk_pin h
        rcases h3 with h3 | ⟨hs, h3 | h3⟩
        · exact keep31 hi (fun h => by rw [h3] at h; cases h) (fun h _ => by rw [h3] at h; cases h) (.inl h2) _
        · cases h3
        · cases h3
          have hp : PresentsPin f (.apdu i) := ⟨i, rfl, .inr hins, hp1, hp2, hs⟩
          exact keep31 hi (fun _ => ⟨.inl hp, ne, ioErr_revoked⟩) (fun _ _ => ⟨.inl hp, nu⟩) (.inl h2) _
      | updIo f1 r1 h =>
        exact keep31 (r' := { r1 with pin := ⟨false⟩ }) hi (fun h => by cases h) (fun h _ => by cases h)
          (.inl (chk_pin h).2.1) _
  | flagIo w hp1 hp2 hl f' r' h =>
    cases w with
    | puk => exact pukKeep rfl hp2 h
    | pin => exact pinNone rfl h
  | done w hp1 hp2 hl f1 f' r' h =>
    cases w with
    | puk => exact pukKeep rfl hp2 h
    | pin => exact pinNone rfl h

theorem rrc31 {log : List Entry} {a : Reply} {f' : Flash} (hi : Inv31 ⟨f, some r⟩ log) (hins : i.c.ins = 0x2C)
    (h : RrcEff A i f (pre i.c r) (.done a) f' r') :
    Inv31 ⟨f', some r'⟩ ((⟨f, some r⟩, .apdu i, .reply a) :: log) := by
  have ne : ∀ {a}, ¬ SessionEnds (.apdu i) (.reply a) := not_ends (.inl (by rw [hins]; decide))
  have nu : ∀ {o}, ¬ KeyUsed (.apdu i) o := not_used (by rw [hins]; decide)
  cases h with
  | bad _ hb => exact bad31 (r' := pre i.c r) hi hb rfl rfl rfl _
  | fail hp1 hp2 hl e f' r' h =>
    cases h with
    | chk e f' r' h =>
      obtain ⟨h3, h4, h5⟩ := chk_puk h
      have nr : ¬ PinRevoked (.apdu i) (.reply a) := by
        rintro ⟨j, e, h'⟩
        cases e
        rcases h' with ⟨h', _⟩ | ⟨h', _⟩ | ⟨h', _⟩ | ⟨_, h'⟩
        · rw [hins] at h'; revert h'; decide
        · rw [hins] at h'; revert h'; decide
        · rw [hins] at h'; revert h'; decide
        · exact not_ok (chk_failed h) h'
      exact keep31 hi (fun h => ⟨.inr (by rw [h5] at h; exact h), ne, nr⟩)
        (fun h h' => ⟨.inr ⟨by rw [h5] at h; exact h, by rw [h3] at h'; exact h'⟩, nu⟩) (.inl h4) _
    | updIo f1 r1 h =>
      exact keep31 (r' := { r1 with pin := ⟨false⟩ }) hi (fun h => by cases h) (fun h _ => by cases h)
        (.inl (chk_puk h).2.1) _
  | done hp1 hp2 hl f' r' h =>
    obtain ⟨h1, h2⟩ := vtu_pin_none h
    exact keep31 hi (fun h => by rw [h2] at h; cases h) (fun h _ => by rw [h2] at h; cases h) (.inl h1) _

theorem touch_now {m : Meta} {k : Ref} {t : Nat} (hins : i.c.ins = 0x87) (hk : refOf i.c.p2 = some k)
    (hm : metaOf k f = some m) (ht : TouchEff i r m t) : t = r.lastTouch ∨ TouchNow f i t := by
  rcases ht with ⟨_, h⟩ | ⟨_, _, h⟩ | ⟨h1, h2, h3, h⟩ | ⟨_, _, _, h⟩
  · exact .inl h
  · exact .inl h
  · exact .inr ⟨hins, k, m, hk, hm, h1, h2, h3, h.symm⟩
  · exact .inl h

theorem ga31 {log : List Entry} {a : Reply} (hi : Inv31 ⟨f, some r⟩ log) (hins : i.c.ins = 0x87)
    (h : GAEff A x i f (pre i.c r) (.done a) r') :
    Inv31 ⟨f, some r'⟩ ((⟨f, some r⟩, .apdu i, .reply a) :: log) := by
  have ne : ∀ {a}, ¬ SessionEnds (.apdu i) (.reply a) := not_ends (.inl (by rw [hins]; decide))
  have nr : ∀ {o}, ¬ PinRevoked (.apdu i) o := not_revoked (by rw [hins]; decide)
  have adm : refOf i.c.p2 = some .adm → ∀ {o}, ¬ KeyUsed (.apdu i) o := by
    rintro hk o ⟨_, e, _, h, _⟩
    cases e
    exact h (ref_adm hk)
  cases h with
  | bad _ hb => exact bad31 (r' := pre i.c r) hi hb rfl rfl rfl _
  | run k hk m hm t htch _ _ h =>
    have htn := touch_now hins hk hm htch
    have htn : t = r.lastTouch ∨ TouchNow f i t := htn
    cases h with
    | fail _ ho r' c hc ha =>
      have nu : ¬ KeyUsed (.apdu i) (.reply a) := by
        rintro ⟨_, _, _, _, h⟩
        exact not_ok ho h
      have e : r'.pin = r.pin ∧ r'.consumed = c ∧ r'.lastTouch = t := by
        rcases ha with rfl | rfl | rfl <;> exact ⟨rfl, rfl, rfl⟩
      obtain ⟨e1, e2, e3⟩ := e
      refine keep31 hi (fun h => ⟨.inr (by rw [e1] at h; exact h), ne, nr⟩)
        (fun h h' => ⟨.inr ⟨by rw [e1] at h; exact h, ?_⟩, nu⟩) (by rw [e3]; exact htn) _
      rw [e2] at h'
      cases hr : r.consumed with
      | false => rfl
      | true => have := hc hr; rw [h'] at this; cases this
    | lost hk' hl d ch au =>
      subst hk'
      exact keep31 (r' := { pre i.c r with lastTouch := t, auth := au, chal := ch, admin := false }) hi
        (fun h => ⟨.inr h, ne, nr⟩) (fun h h' => ⟨.inr ⟨h, h'⟩, adm hk⟩) htn _
    | key s hk hm d hd =>
      exact keep31 (r' := { authReset { pre i.c r with lastTouch := t } with consumed := true }) hi
        (fun h => ⟨.inr h, ne, nr⟩) (fun h h' => by cases h') htn _
    | extReq hk' q hq v d hd =>
      subst hk'
      exact keep31 (r' := { pre i.c r with lastTouch := t, auth := .external, chal := d, admin := false }) hi
        (fun h => ⟨.inr h, ne, nr⟩) (fun h h' => ⟨.inr ⟨h, h'⟩, adm hk⟩) htn _
    | mutReq hk' q hq v d hd =>
      subst hk'
      exact keep31 (r' := { pre i.c r with lastTouch := t, auth := .mutual, chal := d, admin := false }) hi
        (fun h => ⟨.inr h, ne, nr⟩) (fun h h' => ⟨.inr ⟨h, h'⟩, adm hk⟩) htn _
    | extResp hk' ha hd =>
      subst hk'
      exact keep31 (r' := { authReset { pre i.c r with lastTouch := t } with admin := true }) hi
        (fun h => ⟨.inr h, ne, nr⟩) (fun h h' => ⟨.inr ⟨h, h'⟩, adm hk⟩) htn _
    | mutResp hk' ha hd v =>
      subst hk'
      exact keep31 (r' := { authReset { pre i.c r with lastTouch := t } with admin := true }) hi
        (fun h => ⟨.inr h, ne, nr⟩) (fun h h' => ⟨.inr ⟨h, h'⟩, adm hk⟩) htn _

theorem get_pin {o : Outcome Reply} {f : Flash} (h : GetEff A f r o r') (ho : o ≠ .cut) :
    r'.pin = r.pin ∧ r'.consumed = r.consumed ∧ r'.lastTouch = r.lastTouch := by
  cases h with
  | cut => exact absurd rfl ho
  | bad => exact ⟨rfl, rfl, rfl⟩
  | disc => exact ⟨rfl, rfl, rfl⟩
  | first _ _ _ _ _ _ _ hr =>
    rcases hr with ⟨rfl, _⟩ | ⟨rfl, _⟩ <;> exact ⟨rfl, rfl, rfl⟩
  | next _ _ _ _ _ _ _ _ _ _ hr =>
    rcases hr with rfl | rfl <;> exact ⟨rfl, rfl, rfl⟩

theorem put_pin {c : Apdu.Capdu} {o : Outcome Reply} {f f' : Flash} (h : PutEff A c f r o f' r') (ho : o ≠ .cut) :
    r'.pin = r.pin ∧ r'.consumed = r.consumed ∧ r'.lastTouch = r.lastTouch := by
  cases h with
  | cut => exact absurd rfl ho
  | app _ _ _ _ _ _ _ hr => rw [hr]; split <;> exact ⟨rfl, rfl, rfl⟩
  | first _ _ _ _ _ _ _ _ _ hr => rw [hr]; split <;> exact ⟨rfl, rfl, rfl⟩
  | _ => exact ⟨rfl, rfl, rfl⟩

theorem adm_pin {o : Outcome Reply} {f f' : Flash} (h : AdmEff A f r o f' r') (ho : o ≠ .cut) :
    r'.pin = r.pin ∧ r'.consumed = r.consumed ∧ r'.lastTouch = r.lastTouch := by
  cases h with
  | cut => exact absurd rfl ho
  | _ => exact ⟨rfl, rfl, rfl⟩

theorem inv31_step (hx : x.Ok) {s : St} {log : List Entry} {op : Op} {env : Env}
    (hi : Inv31 s log) : Inv31 (step x s op env).1 ((s, op, (step x s op env).2) :: log) := by
  have h := step_eff hx s op (anyAll env)
  generalize (step x s op env).1 = s' at h ⊢
  generalize (step x s op env).2 = o at h ⊢
  cases h with
  | off => intro r h; cases h
  | apduCut => intro r h; cases h
  | facCut => intro r h; cases h
  | bootCut => intro r h; cases h
  | desel f r =>
    intro r1 h1
    cases h1
    refine ⟨fun h => (by cases h), fun h => (by cases h), ?_⟩
    exact (hi r rfl).2.2.imp id fun h => .inr ⟨h, by (intro e; cases e), by (intro _ e; cases e)⟩
  | fac f r rnd a f' r' h =>
    obtain ⟨al, rfl⟩ := h.ram
    intro r1 h1
    cases h1
    refine ⟨fun h => (by cases h), fun h => (by cases h), ?_⟩
    exact (hi r rfl).2.2.imp id fun h => .inr ⟨h, by (intro e; cases e), by (intro _ e; cases e)⟩
  | boot f o rnd a f' r' h =>
    obtain ⟨al, rfl⟩ := h.ram
    intro r1 h1
    cases h1
    exact ⟨fun h => (by cases h), fun h => (by cases h), .inl rfl⟩
  | apdu f r i a f' r' h =>
    cases h with
    | cla h => exact bad31 hi (bad_sw (by decide)) rfl rfl rfl _
    | sel h o r' he =>
      cases he with
      | bad _ hb => exact bad31 (r' := pre i.c r) hi hb rfl rfl rfl _
      | ok d =>
        exact keep31 (r' := selected (pre i.c r)) hi (fun h => by cases h) (fun h => by cases h) (.inl rfl) _
    | get h o r' he =>
      obtain ⟨e1, e2, e3⟩ := get_pin he (by intro e; cases e)
      refine same31 hi ?_ e1 e2 e3 _
      rcases h with h | h <;> rw [h] <;> decide
    | verify h o f' r' he => exact verify31 hi h he
    | chg h o f' r' he => exact chg31 hi h he
    | rrc h o f' r' he => exact rrc31 hi h he
    | ga h o r' he => exact ga31 hi h he
    | put h o f' r' he =>
      obtain ⟨e1, e2, e3⟩ := put_pin he (by intro e; cases e)
      exact same31 hi (by rw [h]; decide) e1 e2 e3 _
    | adm h o f' r' he =>
      obtain ⟨e1, e2, e3⟩ := adm_pin he (by intro e; cases e)
      refine same31 hi ?_ e1 e2 e3 _
      rcases h with h | h | h <;> rw [h] <;> decide
    | set h o f' he => exact same31 (r' := pre i.c r) hi (by rw [h]; decide) rfl rfl rfl _
    | reset h o f' r' he =>
      cases he with
      | bad _ hb => exact bad31 (r' := pre i.c r) hi hb rfl rfl rfl _
      | done n m _ _ _ _ _ _ hf =>
        obtain ⟨al, rfl⟩ := hf.ram
        exact keep31 (r' := { poweroff (pre i.c r) with alg := al }) hi (fun h => by cases h) (fun h => by cases h) (.inl rfl) _
    | info h a =>
      refine same31 (r' := pre i.c r) hi ?_ rfl rfl rfl _
      intro h'
      apply h
      revert h'
      generalize i.c.ins = n
      simp only [List.mem_cons, List.not_mem_nil, or_false]
      rintro (h | h | h | h | h | h) <;> simp [h]

theorem inv31_run (hx : x.Ok) (f : Flash) (h : List (Op × Env)) : Inv31 (after x f h) (logOf x f h) :=
  run_inv (A := anyFault) (fun _ _ _ _ _ hi => inv31_step hx hi) (fun _ _ _ => trivial) (fun _ e => by cases e)

/-- **C31.** After any history, with any storage errors and power cuts: if GENERAL AUTHENTICATE with a key slot is
answered 9000, then the slot has policies, they are satisfied by the history (PIN never: nothing; once: the PIN was
presented in this session and not revoked; always: and no private key was used since), and so is the touch policy.
The tick counter of the device has 32 bits. -/
theorem C31_policies_obeyed (hx : x.Ok) (f : Flash) (h : List (Op × Env)) (i : In) (hins : i.c.ins = 0x87)
    (hp2 : i.c.p2 ≠ 0x9B) (htick : i.tick < 2 ^ 32) (env : Env)
    (hok : Ok (step x (after x f h) (.apdu i) env).2) :
    ∃ k m, refOf i.c.p2 = some k ∧ metaOf k (after x f h).flash = some m ∧ PinOk (logOf x f h) m ∧
      TouchOk (logOf x f h) i m := by
  have hi := inv31_run hx f h
  generalize after x f h = s at *
  generalize logOf x f h = log at *
  have hs := step_eff hx s (.apdu i) (anyAll env)
  generalize (step x s (.apdu i) env).1 = s' at hs
  generalize (step x s (.apdu i) env).2 = o at hs hok
  obtain ⟨d, rfl⟩ := hok
  cases hs with
  | apdu f r i a f' r' hp =>
    cases hp with
    | sel h => exact absurd h (by rw [hins]; decide)
    | get h => exact absurd h (by rw [hins]; decide)
    | verify h => exact absurd h (by rw [hins]; decide)
    | chg h => exact absurd h (by rw [hins]; decide)
    | rrc h => exact absurd h (by rw [hins]; decide)
    | put h => exact absurd h (by rw [hins]; decide)
    | adm h => exact absurd h (by rw [hins]; decide)
    | set h => exact absurd h (by rw [hins]; decide)
    | reset h => exact absurd h (by rw [hins]; decide)
    | info h => exact absurd h (by rw [hins]; decide)
    | ga h o r' he =>
      cases he with
      | bad _ hb => exact absurd ⟨d, rfl⟩ (not_ok (bad_failed hb))
      | run k hk m hm t ht _ _ hc =>
        refine ⟨k, m, hk, hm, ?_⟩
        obtain ⟨h1, h2, h3⟩ := hi r rfl
        have na : k ≠ .adm := fun e => hp2 (ref_adm (e ▸ hk))
        cases hc with
        | fail _ ho => exact absurd ⟨d, rfl⟩ (not_ok ho)
        | extReq e => exact absurd e na
        | mutReq e => exact absurd e na
        | extResp e => exact absurd e na
        | mutResp e => exact absurd e na
        | key s hk hal d hd =>
          refine ⟨⟨fun e => h1 (hal.1 e), fun e => h2 (hal.1 (by rw [e]; decide)) (hal.2 e)⟩, ?_⟩
          rcases ht with ⟨hn, _⟩ | ⟨n2, n3, _⟩ | ⟨_, _, hp, _⟩ | ⟨e3, hlt, hd, _⟩
          · exact .inl hn
          · exact .inr ⟨fun e => absurd e n2, fun e => absurd e n3⟩
          · exact .inr ⟨fun _ => hp, fun _ => .inl hp⟩
          · refine .inr ⟨fun e => absurd (e3.symm.trans e) (by decide), fun _ => .inr ⟨r.lastTouch, ?_, hlt, ?_⟩⟩
            · refine h3.resolve_left fun e => ?_
              have : r.lastTouch < i.tick := hlt
              omega
            · have h1 : r.lastTouch < i.tick := hlt
              have h2 : i.tick - r.lastTouch < 15000 := hd
              omega

end Verif.Piv
