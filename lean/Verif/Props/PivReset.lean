import Verif.Props.PivData
/-
C33: unblocking and reset. C34: the flags about factory values.
-/
set_option linter.unusedSimpArgs false
namespace Verif.Piv
open Cmd Verif.Spec.Piv Verif.KeyFile

variable {A : Fault → Prop} {x : Ext} {i : In} {f : Flash} {r r' : Ram}

/-! ### C33 -/

/-- What a step with a command tells. -/
theorem apdu_eff (hx : x.Ok) {s : St} {env : Env} (he : env.all A) :
    (step x s (.apdu i) env = (s, .none) ∧ s.ram = none) ∨
    ∃ r, s.ram = some r ∧
      ((∃ a r', PEff A x i s.flash r (.done a) (step x s (.apdu i) env).1.flash r' ∧
        step x s (.apdu i) env = (⟨(step x s (.apdu i) env).1.flash, some r'⟩, .reply a)) ∨
       (∃ r', PEff A x i s.flash r .cut (step x s (.apdu i) env).1.flash r' ∧
        step x s (.apdu i) env = (⟨(step x s (.apdu i) env).1.flash, none⟩, .cut))) := by
  have h := step_eff hx s (.apdu i) he
  generalize step x s (.apdu i) env = q at h ⊢
  obtain ⟨s', o⟩ := q
  cases h with
  | off => exact .inl ⟨rfl, rfl⟩
  | apdu f r i a f' r' h => exact .inr ⟨r, rfl, .inl ⟨a, r', h, rfl⟩⟩
  | apduCut f r i f' r' h => exact .inr ⟨r, rfl, .inr ⟨r', h, rfl⟩⟩

theorem ok_failed {a : Reply} (h : Failed (.done a)) : ¬ Ok (.reply a) := not_ok h

/-- **C33 (unblocking).** Whatever happens to the storage: if RESET RETRY COUNTER is answered 9000, the command carried
the PUK, which was not blocked; the PIN is now the second half of the data with all its tries, the tries of the PUK are
restored, and nothing else has changed. -/
theorem C33_unblock_needs_puk (hx : x.Ok) (s : St) (i : In) (hins : i.c.ins = 0x2C) (env : Env)
    (ho : Ok (step x s (.apdu i) env).2) :
    Shows s.flash.puk i.c.data ∧ i.c.data.length = 16 ∧
    ∃ p d q e, s.flash.pin = some p ∧ p.dflt = some d ∧ s.flash.puk = some q ∧ q.dflt = some e ∧
      (step x s (.apdu i) env).1.flash =
        { s.flash with pin := some { p with data := i.c.data.drop 8, ctr := some d },
                       puk := some { q with ctr := some e } } := by
  rcases apdu_eff (A := anyFault) hx (s := s) (i := i) (anyAll env) with ⟨h, _⟩ | ⟨r, hr, h⟩
  · rw [h] at ho; obtain ⟨d, h⟩ := ho; cases h
  rcases h with ⟨a, r', h, e⟩ | ⟨r', h, e⟩
  · rw [e] at ho
    generalize (step x s (.apdu i) env).1.flash = f' at h ⊢
    generalize s.flash = f at h ⊢
    cases h with
    | cla => obtain ⟨d, h⟩ := ho; cases h
    | rrc _ _ _ _ he =>
      cases he with
      | bad _ h => exact absurd ho (not_ok (bad_failed h))
      | fail _ _ _ _ _ _ h => exact absurd ho (not_ok (vtu_failed h))
      | done _ _ hl _ _ h =>
        cases h with
        | ok f1 r1 h p d hp hd =>
          cases h with
          | right hs q d' hq hd' =>
            refine ⟨hs, hl, p, d, q, d', hp, hd, hq, hd', ?_⟩
            rw [List.take_of_length_le (by simp; omega)]
            rfl
    | sel h => rw [hins] at h; exact absurd h (by decide)
    | get h => rw [hins] at h; exact absurd h (by decide)
    | verify h => rw [hins] at h; exact absurd h (by decide)
    | chg h => rw [hins] at h; exact absurd h (by decide)
    | ga h => rw [hins] at h; exact absurd h (by decide)
    | put h => rw [hins] at h; exact absurd h (by decide)
    | adm h => rw [hins] at h; exact absurd h (by decide)
    | set h => rw [hins] at h; exact absurd h (by decide)
    | reset h => rw [hins] at h; exact absurd h (by decide)
    | info h => rw [hins] at h; exact absurd h (by decide)
  · rw [e] at ho; obtain ⟨d, h⟩ := ho; cases h

theorem chk_secret {w : Which} {d : Bytes} {e : Option Reply} {f' : Flash} (h : ChkEff A w d f r e f' r') :
    secret f'.pin = secret f.pin ∧ secret f'.puk = secret f.puk := by
  cases h with
  | io => exact ⟨rfl, rfl⟩
  | blocked => exact ⟨rfl, rfl⟩
  | rightIo => exact ⟨rfl, rfl⟩
  | wrong q n hq => cases w <;> simp_all [partF, secret]
  | right _ q n hq => cases w <;> simp_all [partF, secret]

theorem vtu_secret {w w' : Which} {d : Bytes} {e : Option Reply} {f' : Flash} (h : VtuEff A w w' d f r e f' r') :
    (∀ v, v ≠ w' → secret ((partF v).get f') = secret ((partF v).get f)) ∧
    (secret ((partF w').get f') = secret ((partF w').get f) ∨ Shows ((partF w).get f) d) := by
  have hv : ∀ {e f' r'}, ChkEff A w d f r e f' r' → ∀ v, secret ((partF v).get f') = secret ((partF v).get f) := by
    intro e f' r' h v
    cases v
    · exact (chk_secret h).1
    · exact (chk_secret h).2
  cases h with
  | chk _ _ _ h => exact ⟨fun v _ => hv h v, .inl (hv h w')⟩
  | updIo f1 r1 h =>
    have hs := hv h
    cases h with
    | right h =>
      refine ⟨fun v hn => ?_, .inr h⟩
      rw [← hs v]
      cases v <;> cases w' <;> first | rfl | exact absurd rfl hn
  | ok f1 r1 h =>
    have hs := hv h
    cases h with
    | right h =>
      refine ⟨fun v hn => ?_, .inr h⟩
      rw [← hs v]
      cases v <;> cases w' <;> first | rfl | exact absurd rfl hn

theorem setDflt_secret {w : Which} {v : Byte} {f f' : Flash} (h : setDflt w v f = some f') :
    f'.pin = f.pin ∧ f'.puk = f.puk := by
  cases w <;> unfold setDflt at h <;> simp only at h <;> split at h <;> cases h <;> exact ⟨rfl, rfl⟩

/-- **C33 (the PIN and the PUK change only for those who know them).** Whatever happens to the storage, and also if
power is cut in the middle: a command after which the stored PIN is another one is CHANGE REFERENCE DATA with the old
PIN, RESET RETRY COUNTER with the PUK, or RESET; after which the PUK is another one, CHANGE REFERENCE DATA with the old
PUK, or RESET. -/
theorem C33_secrets_change (hx : x.Ok) (s : St) (i : In) (env : Env) :
    (secret (step x s (.apdu i) env).1.flash.pin ≠ secret s.flash.pin →
      (i.c.ins = 0x24 ∧ i.c.p2 = 0x80 ∧ Shows s.flash.pin i.c.data) ∨ (i.c.ins = 0x2C ∧ Shows s.flash.puk i.c.data) ∨
      i.c.ins = 0xFB) ∧
    (secret (step x s (.apdu i) env).1.flash.puk ≠ secret s.flash.puk →
      (i.c.ins = 0x24 ∧ i.c.p2 = 0x81 ∧ Shows s.flash.puk i.c.data) ∨ i.c.ins = 0xFB) := by
  have key : ∀ {f f' : Flash} {r r' : Ram} {o : Outcome Reply}, PEff anyFault x i f r o f' r' →
    (secret f'.pin ≠ secret f.pin →
      (i.c.ins = 0x24 ∧ i.c.p2 = 0x80 ∧ Shows f.pin i.c.data) ∨ (i.c.ins = 0x2C ∧ Shows f.puk i.c.data) ∨
      i.c.ins = 0xFB) ∧
    (secret f'.puk ≠ secret f.puk →
      (i.c.ins = 0x24 ∧ i.c.p2 = 0x81 ∧ Shows f.puk i.c.data) ∨ i.c.ins = 0xFB) := by
    intro f f' r r' o h
    have same : secret f'.pin = secret f.pin ∧ secret f'.puk = secret f.puk → (secret f'.pin ≠ secret f.pin →
      (i.c.ins = 0x24 ∧ i.c.p2 = 0x80 ∧ Shows f.pin i.c.data) ∨ (i.c.ins = 0x2C ∧ Shows f.puk i.c.data) ∨
      i.c.ins = 0xFB) ∧
    (secret f'.puk ≠ secret f.puk →
      (i.c.ins = 0x24 ∧ i.c.p2 = 0x81 ∧ Shows f.puk i.c.data) ∨ i.c.ins = 0xFB) :=
      fun h => ⟨fun n => absurd h.1 n, fun n => absurd h.2 n⟩
    have upd : ∀ {w : Which} {e f1 r1}, i.c.ins = 0x24 → (i.c.p2 = if w = .pin then 0x80 else 0x81) →
        VtuEff anyFault w w i.c.data f (pre i.c r) e f1 r1 → secret f'.pin = secret f1.pin → secret f'.puk = secret f1.puk →
        (secret f'.pin ≠ secret f.pin →
      (i.c.ins = 0x24 ∧ i.c.p2 = 0x80 ∧ Shows f.pin i.c.data) ∨ (i.c.ins = 0x2C ∧ Shows f.puk i.c.data) ∨
      i.c.ins = 0xFB) ∧
    (secret f'.puk ≠ secret f.puk →
      (i.c.ins = 0x24 ∧ i.c.p2 = 0x81 ∧ Shows f.puk i.c.data) ∨ i.c.ins = 0xFB) := by
      intro w e f1 r1 h1 h2 hv e1 e2
      obtain ⟨ha, hb⟩ := vtu_secret hv
      rw [e1, e2]
      cases w with
      | pin => exact ⟨fun n => .inl ⟨h1, h2, hb.resolve_left n⟩, fun n => absurd (ha .puk (by decide)) n⟩
      | puk => exact ⟨fun n => absurd (ha .pin (by decide)) n, fun n => .inl ⟨h1, h2, hb.resolve_left n⟩⟩
    cases h with
    | verify _ _ _ _ he =>
      apply same
      cases he with
      | chk _ _ _ _ _ _ h => exact chk_secret h
      | right _ _ _ _ _ h => exact chk_secret h
      | _ => exact ⟨rfl, rfl⟩
    | chg h _ _ _ he =>
      cases he with
      | bad => exact same ⟨rfl, rfl⟩
      | cut _ _ _ hs =>
        rcases hs with rfl | ⟨w, h1, h2, h3, h4⟩
        · exact same ⟨rfl, rfl⟩
        · cases w with
          | pin => exact ⟨fun _ => .inl ⟨h, h2, h3⟩, fun n => absurd (h4 .puk (by decide)) n⟩
          | puk => exact ⟨fun n => absurd (h4 .pin (by decide)) n, fun _ => .inl ⟨h, h2, h3⟩⟩
      | fail w _ hp2 _ _ _ _ hv => exact upd h hp2 hv rfl rfl
      | flagIo w _ hp2 _ _ _ hv => exact upd h hp2 hv rfl rfl
      | done w _ hp2 _ _ _ _ hv hf =>
        obtain ⟨e1, e2⟩ := setDflt_secret hf
        exact upd h hp2 hv (by rw [e1]) (by rw [e2])
    | rrc h _ _ _ he =>
      have fin : ∀ {e f1 r1}, VtuEff anyFault .puk .pin i.c.data f (pre i.c r) e f1 r1 → f' = f1 →  (secret f'.pin ≠ secret f.pin →
      (i.c.ins = 0x24 ∧ i.c.p2 = 0x80 ∧ Shows f.pin i.c.data) ∨ (i.c.ins = 0x2C ∧ Shows f.puk i.c.data) ∨
      i.c.ins = 0xFB) ∧
    (secret f'.puk ≠ secret f.puk →
      (i.c.ins = 0x24 ∧ i.c.p2 = 0x81 ∧ Shows f.puk i.c.data) ∨ i.c.ins = 0xFB) := by
        intro e f1 r1 hv e'
        subst e'
        obtain ⟨ha, hb⟩ := vtu_secret hv
        exact ⟨fun n => .inr (.inl ⟨h, hb.resolve_left n⟩), fun n => absurd (ha .puk (by decide)) n⟩
      cases he with
      | bad => exact same ⟨rfl, rfl⟩
      | cut _ _ _ hs =>
        rcases hs with rfl | ⟨_, _, h3, h4⟩
        · exact same ⟨rfl, rfl⟩
        · exact ⟨fun _ => .inr (.inl ⟨h, h3⟩), fun n => absurd h4 n⟩
      | fail _ _ _ _ _ _ hv => exact fin hv rfl
      | done _ _ _ _ _ hv => exact fin hv rfl
    | put _ _ _ _ he => apply same; cases he <;> exact ⟨rfl, rfl⟩
    | adm _ _ _ _ he =>
      apply same
      cases he with
      | bad => exact ⟨rfl, rfl⟩
      | done _ _ _ hf => rw [hf.pin, hf.puk]; exact ⟨rfl, rfl⟩
      | cut _ _ hf => rcases hf with rfl | ⟨_, hf, _⟩; exact ⟨rfl, rfl⟩; rw [hf.pin, hf.puk]; exact ⟨rfl, rfl⟩
    | set _ _ _ he =>
      apply same
      cases he with
      | cut _ _ hf => rcases hf with rfl | ⟨_, rfl⟩ <;> exact ⟨rfl, rfl⟩
      | _ => exact ⟨rfl, rfl⟩
    | reset h => exact ⟨fun _ => .inr (.inr h), fun _ => .inr h⟩
    | _ => exact same ⟨rfl, rfl⟩
  rcases apdu_eff (A := anyFault) hx (s := s) (i := i) (anyAll env) with ⟨h, _⟩ | ⟨r, hr, h⟩
  · rw [h]; exact ⟨fun n => absurd rfl n, fun n => absurd rfl n⟩
  rcases h with ⟨a, r', h, e⟩ | ⟨r', h, e⟩
  · exact key h
  · exact key h

/-- What RESET does. -/
theorem reset_eff (hx : x.Ok) {s : St} {env : Env} (he : env.all A) (hins : i.c.ins = 0xFB) (hcla : i.c.cla = 0)
    (hr : s.ram = some r) :
    ((∃ a r', ResEff A i s.flash (pre i.c r) (.done a) (step x s (.apdu i) env).1.flash r' ∧
        (step x s (.apdu i) env).2 = .reply a) ∨
       (∃ r', ResEff A i s.flash (pre i.c r) .cut (step x s (.apdu i) env).1.flash r' ∧
        (step x s (.apdu i) env).2 = .cut) ∨
       ((step x s (.apdu i) env).1.flash = s.flash ∧ A .cut ∧ (step x s (.apdu i) env).2 = .cut)) := by
  have key : ∀ {f f' : Flash} {r r' : Ram} {o : Outcome Reply}, PEff A x i f r o f' r' →
      ResEff A i f (pre i.c r) o f' r' ∨ f' = f ∧ A .cut ∧ o = .cut := by
    intro f f' r r' o h
    cases h with
    | cla h => exact absurd (.inl hcla) h
    | reset _ _ _ _ he => exact .inl he
    | cut h => exact .inr ⟨rfl, h, rfl⟩
    | sel h => rw [hins] at h; exact absurd h (by decide)
    | get h => rw [hins] at h; exact absurd h (by decide)
    | verify h => rw [hins] at h; exact absurd h (by decide)
    | chg h => rw [hins] at h; exact absurd h (by decide)
    | rrc h => rw [hins] at h; exact absurd h (by decide)
    | ga h => rw [hins] at h; exact absurd h (by decide)
    | put h => rw [hins] at h; exact absurd h (by decide)
    | adm h => rw [hins] at h; exact absurd h (by decide)
    | set h => rw [hins] at h; exact absurd h (by decide)
    | info h => rw [hins] at h; exact absurd h (by decide)
  rcases apdu_eff (A := A) hx (s := s) (i := i) he with ⟨h, h'⟩ | ⟨r1, hr1, h⟩
  · rw [hr] at h'; cases h'
  rw [hr] at hr1; cases hr1
  rcases h with ⟨a, r', h, e⟩ | ⟨r', h, e⟩
  · rcases key h with h | ⟨_, _, h⟩
    · exact .inl ⟨a, r', h, by rw [e]⟩
    · cases h
  · rcases key h with h | ⟨h, h', _⟩
    · exact .inr (.inl ⟨r', h, by rw [e]⟩)
    · exact .inr (.inr ⟨h, h', by rw [e]⟩)

theorem blocked_of_ret {p : Pin.Flash} {n : Option Nat} (hA : ¬ A .fail) (h : Pin.RetEff A p n) (h0 : n.getD 0 = 0) :
    Blocked p := by
  intro q c hq hd hc
  cases h with
  | empty p hp h => rw [hp] at hq; cases hq; exact absurd h hd
  | io h => rcases h with h | h; exact absurd h hA; rw [h q hq] at hc; cases hc
  | some p c' hp hc' _ =>
    rw [hp] at hq; cases hq
    rw [hc'] at hc; cases hc
    exact UInt8.toNat_inj.mp (by simpa using h0)

theorem ret_of_blocked {p : Pin.Flash} {n : Option Nat} (hA : ¬ A .fail) (h : Pin.RetEff A p n) (hb : Blocked p) :
    n.getD 0 = 0 := by
  cases h with
  | empty => rfl
  | io => rfl
  | some p c hp hc hd => rw [hb p c hp (hd.resolve_right hA) hc]; rfl

/-- **C33 (reset).** As long as the storage works, even if power may be cut at any time: RESET has an effect on flash
or is answered 9000 only if no tries are left for both the PIN and the PUK; and if it is answered 9000, flash is as from
the factory. -/
theorem C33_reset_needs_blocked (hx : x.Ok) (s : St) (i : In) (hins : i.c.ins = 0xFB) (hcla : i.c.cla = 0) (env : Env)
    (he : env.all cutsOnly)
    (ho : Ok (step x s (.apdu i) env).2 ∨ (step x s (.apdu i) env).1.flash ≠ s.flash) :
    Blocked s.flash.pin ∧ Blocked s.flash.puk ∧
    (Ok (step x s (.apdu i) env).2 → (step x s (.apdu i) env).1.flash = factory i.rnd s.flash.alg) := by
  have hA : ¬ cutsOnly .fail := fun h => h rfl
  cases hr : s.ram with
  | none =>
    have e : step x s (.apdu i) env = (s, .none) := by obtain ⟨f, o⟩ := s; cases hr; rfl
    rw [e] at ho
    rcases ho with ⟨d, h⟩ | h
    · cases h
    · exact absurd rfl h
  | some r =>
    rcases reset_eff hx he hins hcla hr with ⟨a, r', h, e⟩ | ⟨r', h, e⟩ | ⟨h, _, e⟩
    · rw [e] at ho ⊢
      generalize (step x s (.apdu i) env).1.flash = f' at h ho ⊢
      cases h with
      | bad _ hb =>
        rcases ho with h | h
        · exact absurd h (not_ok (bad_failed hb))
        · exact absurd rfl h
      | done n m hn hn0 hm hm0 _ _ hf =>
        exact ⟨blocked_of_ret hA hn hn0, blocked_of_ret hA hm hm0, fun _ => (hf.onReset rfl).resolve_left hA⟩
    · rw [e] at ho ⊢
      rcases ho with ⟨d, h⟩ | ho
      · cases h
      · generalize (step x s (.apdu i) env).1.flash = f' at h ho ⊢
        cases h with
        | bad _ hb => exact absurd rfl ho
        | cut _ _ _ hb =>
          rcases hb with h | ⟨n, m, hn, hn0, hm, hm0⟩
          · exact absurd h ho
          · exact ⟨blocked_of_ret hA hn hn0, blocked_of_ret hA hm hm0, fun ⟨d, h⟩ => by (cases h)⟩
    · rw [e] at ho
      rcases ho with ⟨d, h'⟩ | ho
      · cases h'
      · exact absurd h ho

/-- **C33 (reset is available).** If no tries are left for both, RESET brings the applet back. -/
theorem C33_reset_available (hx : x.Ok) (i : In) (hins : i.c.ins = 0xFB) (hcla : i.c.cla = 0) (hp1 : i.c.p1 = 0)
    (hp2 : i.c.p2 = 0) (hd : i.c.data = []) (hb : Blocked f.pin) (hb' : Blocked f.puk) (env : Env)
    (he : env.all noFault) :
    Ok (step x ⟨f, some r⟩ (.apdu i) env).2 ∧
    (step x ⟨f, some r⟩ (.apdu i) env).1.flash = factory i.rnd f.alg := by
  have hA : ¬ noFault .fail := fun h => by (cases h)
  have hA' : ¬ noFault .cut := fun h => by (cases h)
  rcases reset_eff hx (s := ⟨f, some r⟩) he hins hcla rfl with ⟨a, r', h, e⟩ | ⟨r', h, e⟩ | ⟨h, h', e⟩
  · rw [e]
    generalize (step x ⟨f, some r⟩ (.apdu i) env).1.flash = f' at h ⊢
    cases h with
    | bad _ _ hn =>
      rcases hn with h | h | h | ⟨n, hn, h⟩ | ⟨n, hn, h⟩
      · exact absurd hp1 h
      · exact absurd hp2 h
      · exact absurd hd h
      · exact absurd (ret_of_blocked hA hn hb) h
      · exact absurd (ret_of_blocked hA hn hb') h
    | done n m hn hn0 hm hm0 _ _ hf => exact ⟨⟨[], rfl⟩, (hf.onReset rfl).resolve_left hA⟩
  · generalize (step x ⟨f, some r⟩ (.apdu i) env).1.flash = f' at h ⊢
    cases h with
    | bad _ hb => rcases hb with ⟨u, h⟩ | ⟨sw, _, h⟩ <;> cases h
    | cut h => exact absurd h hA'
  · exact absurd h' hA'

/-! ### C34 -/

/-- The flag of a secret says whether it is the factory value. -/
def Says (flag : Option Byte) (p : Prop) : Prop := (flag = some 1 ∧ p) ∨ (flag = some 0 ∧ ¬ p)

theorem says_ite {p : Prop} [Decidable p] : Says (some (if p then 1 else 0)) p := by
  unfold Says
  split
  · exact .inl ⟨rfl, by assumption⟩
  · exact .inr ⟨rfl, by assumption⟩

/-- The PIN file exists with all its attributes. -/
def Whole (p : Pin.Flash) : Prop := ∃ q n d, p = some q ∧ q.ctr = some n ∧ q.dflt = some d

def Wholes (f : Flash) : Prop := ∀ w, Whole ((partF w).get f)

/-- The flags of the PUK and the management key are right. -/
def Flags (f : Flash) : Prop :=
  Wholes f ∧ Says f.pukDflt (secret f.puk = some defaultPuk) ∧ ∃ m, f.mgmt = some m ∧ Says m.dflt (m.key = defaultMgmt)

def PinFlag (f : Flash) : Prop := Says f.pinDflt (secret f.pin = some defaultPin)

def Inv34 (s : St) (log : List Entry) : Prop :=
  (s.ram = none ∧ s.flash.alg = none) ∨ (Flags s.flash ∧ (¬ PinFlagStale log → PinFlag s.flash))

theorem factory_flags {rnd : Nat → Byte} {a : Option Alg} : Flags (factory rnd a) ∧ PinFlag (factory rnd a) :=
  ⟨⟨fun w => by cases w <;> exact ⟨_, _, _, rfl, rfl, rfl⟩, .inl ⟨rfl, rfl⟩, _, rfl, .inl ⟨rfl, rfl⟩⟩, .inl ⟨rfl, rfl⟩⟩

theorem whole_io {p : Pin.Flash} (hA : ¬ A .fail) (h : Whole p) : ¬ Pin.Io A p := by
  obtain ⟨q, n, d, e, h1, h2⟩ := h
  rintro (h | h)
  · exact hA h
  · rcases h q e with h | h
    · rw [h1] at h; cases h
    · rw [h2] at h; cases h

theorem chk_whole {w : Which} {d : Bytes} {e : Option Reply} {f' : Flash} (h : ChkEff A w d f r e f' r') (hw : Wholes f) :
    Wholes f' := by
  intro v
  have hv := hw v
  cases h with
  | io => exact hv
  | blocked => exact hv
  | rightIo => exact hv
  | wrong q n hq =>
    obtain ⟨q', n', d', e, h1, h2⟩ := hw w
    rw [hq] at e; cases e
    cases v <;> cases w <;> first | exact hv | exact ⟨_, _, _, rfl, rfl, h2⟩
  | right _ q n hq hd => cases v <;> cases w <;> first | exact hv | exact ⟨_, _, _, rfl, rfl, hd⟩

theorem vtu_none_whole {w w' : Which} {d : Bytes} {f' : Flash} (h : VtuEff A w w' d f r none f' r') (hw : Wholes f) :
    Wholes f' := by
  cases h with
  | ok f1 r1 h q d hq hd =>
    intro v
    have hv := chk_whole h hw v
    cases v <;> cases w' <;> first | exact hv | exact ⟨_, _, _, rfl, rfl, hd⟩

/-- Without storage errors, changing a secret fails only if the old one is not presented. -/
theorem vtu_some_chk {w w' : Which} {d : Bytes} {e : Reply} {f' : Flash} (hA : ¬ A .fail) (hw : Wholes f)
    (h : VtuEff A w w' d f r (some e) f' r') : ChkEff A w d f r (some e) f' r' := by
  cases h with
  | chk _ _ _ h => exact h
  | updIo f1 r1 h hio => exact absurd hio (whole_io hA (chk_whole h hw w'))

theorem chk_flags {w : Which} {d : Bytes} {e : Option Reply} {f' : Flash} (h : ChkEff A w d f r e f' r') :
    f'.mgmt = f.mgmt ∧ f'.pinDflt = f.pinDflt ∧ f'.pukDflt = f.pukDflt := by
  cases h <;> cases w <;> exact ⟨rfl, rfl, rfl⟩

theorem vtu_flags {w w' : Which} {d : Bytes} {e : Option Reply} {f' : Flash} (h : VtuEff A w w' d f r e f' r') :
    f'.mgmt = f.mgmt ∧ f'.pinDflt = f.pinDflt ∧ f'.pukDflt = f.pukDflt := by
  cases h with
  | chk _ _ _ h => exact chk_flags h
  | updIo f1 r1 h _ => obtain h := chk_flags h; cases w' <;> exact h
  | ok f1 r1 h _ => obtain h := chk_flags h; cases w' <;> exact h

theorem flags_same {f f' : Flash} (h0 : Wholes f') (h1 : f'.mgmt = f.mgmt) (h2 : f'.pukDflt = f.pukDflt) (h3 : secret f'.puk = secret f.puk)
    (h : Flags f) : Flags f' := by
  unfold Flags
  rw [h1, h2, h3]; exact ⟨h0, h.2⟩

theorem pin_same {f f' : Flash} (h2 : f'.pinDflt = f.pinDflt) (h3 : secret f'.pin = secret f.pin) (h : PinFlag f) :
    PinFlag f' := by
  unfold PinFlag
  rw [h2, h3]; exact h

/-- A command other than those that change secrets. -/
theorem same34 {log : List Entry} {a : Reply} {f' : Flash} (hi : Flags f ∧ (¬ PinFlagStale log → PinFlag f))
    (h0 : Wholes f') (h : f'.mgmt = f.mgmt ∧ f'.pinDflt = f.pinDflt ∧ f'.pukDflt = f.pukDflt ∧ secret f'.pin = secret f.pin ∧
      secret f'.puk = secret f.puk) (hn : i.c.ins ≠ 0x24 ∧ i.c.ins ≠ 0xFB ∨ ¬ Ok (.reply a)) :
    Flags f' ∧ (¬ PinFlagStale ((⟨f, some r⟩, .apdu i, .reply a) :: log) → PinFlag f') := by
  refine ⟨flags_same h0 h.1 h.2.2.1 h.2.2.2.2 hi.1, fun hs => pin_same h.2.1 h.2.2.2.1 (hi.2 fun hs' => hs (.inr ⟨hs', ?_, ?_, ?_⟩))⟩
  · rintro ⟨j, e, h1, _, h2⟩
    cases e
    exact hn.elim (fun h => h.1 h1) (fun h => h h2)
  · rintro ⟨j, e, h1, h2⟩
    cases e
    exact hn.elim (fun h => h.2 h1) (fun h => h h2)
  · intro rnd e; cases e

theorem peff34 {log : List Entry} {a : Reply} {f' : Flash} (hi : Flags f ∧ (¬ PinFlagStale log → PinFlag f))
    (h : PEff noFault x i f r (.done a) f' r') :
    Flags f' ∧ (¬ PinFlagStale ((⟨f, some r⟩, .apdu i, .reply a) :: log) → PinFlag f') := by
  have hA : ¬ noFault .fail := fun h => by (cases h)
  have bad : ∀ {a}, Bad (.done a) → Flags f ∧ (¬ PinFlagStale ((⟨f, some r⟩, .apdu i, .reply a) :: log) → PinFlag f) :=
    fun h => same34 hi hi.1.1 ⟨rfl, rfl, rfl, rfl, rfl⟩ (.inr (not_ok (bad_failed h)))
  cases h with
  | cla => exact same34 hi hi.1.1 ⟨rfl, rfl, rfl, rfl, rfl⟩ (.inr (by rintro ⟨d, h⟩; cases h))
  | sel h => exact same34 hi hi.1.1 ⟨rfl, rfl, rfl, rfl, rfl⟩ (.inl (by rw [h]; decide))
  | get h => exact same34 hi hi.1.1 ⟨rfl, rfl, rfl, rfl, rfl⟩ (.inl (by rcases h with h | h <;> rw [h] <;> decide))
  | verify h _ _ _ he =>
    refine same34 hi ?_ ?_ (.inl (by rw [h]; decide))
    · cases he with
      | chk _ _ _ _ _ _ h => exact chk_whole h hi.1.1
      | right _ _ _ _ _ h => exact chk_whole h hi.1.1
      | _ => exact hi.1.1
    cases he with
    | chk _ _ _ _ _ _ h => exact ⟨(chk_flags h).1, (chk_flags h).2.1, (chk_flags h).2.2, chk_secret h⟩
    | right _ _ _ _ _ h => exact ⟨(chk_flags h).1, (chk_flags h).2.1, (chk_flags h).2.2, chk_secret h⟩
    | _ => exact ⟨rfl, rfl, rfl, rfl, rfl⟩
  | chg h _ _ _ he =>
    cases he with
    | bad _ h => exact bad h
    | fail w _ _ _ _ _ _ hv =>
      have h := vtu_some_chk hA hi.1.1 hv
      exact same34 hi (chk_whole h hi.1.1) ⟨(chk_flags h).1, (chk_flags h).2.1, (chk_flags h).2.2, chk_secret h⟩
        (.inr (not_ok (vtu_failed hv)))
    | flagIo _ _ _ _ _ _ _ hA' => exact absurd hA' hA
    | done w _ hp2 hl f1 _ _ hv hf =>
      have hw := vtu_none_whole hv hi.1.1
      obtain ⟨e1, e2, e3⟩ := vtu_flags hv
      obtain ⟨hs, _⟩ := vtu_secret hv
      cases hv with
      | ok f2 r2 hc q d hq hd =>
        have h8 : (i.c.data.drop 8).take 8 = i.c.data.drop 8 := List.take_of_length_le (by simp; omega)
        have sd : ∀ {n : UInt8} {v : Bytes}, Says (some (if i.c.data.drop 8 = v then 1 else 0))
            (secret (some { q with data := (i.c.data.drop 8).take 8, ctr := some n }) = some v) := by
          intro n v
          simp only [secret, Option.map_some, Option.some.injEq, h8]
          exact says_ite
        cases w with
        | pin =>
          have hs := hs .puk (by decide)
          cases hf
          exact ⟨flags_same (fun w => by have := hw w; cases w <;> exact this) e1 e3 hs hi.1, fun _ => sd⟩
        | puk =>
          have hs := hs .pin (by decide)
          cases hf
          refine ⟨⟨fun w => by have := hw w; cases w <;> exact this, sd, ?_⟩, fun hn => pin_same e2 hs (hi.2 fun hs' => hn (.inr ⟨hs', ?_, ?_, ?_⟩))⟩
          · obtain ⟨m, hm, h⟩ := hi.1.2.2
            exact ⟨m, e1.trans hm, h⟩
          · rintro ⟨j, e, _, h2, _⟩
            cases e
            rw [hp2] at h2; exact absurd h2 (by decide)
          · rintro ⟨j, e, h1, _⟩
            cases e
            rw [h] at h1; exact absurd h1 (by decide)
          · intro rnd e; cases e
  | rrc h _ _ _ he =>
    cases he with
    | bad _ h => exact bad h
    | fail _ _ _ _ _ _ hv =>
      have h := vtu_some_chk hA hi.1.1 hv
      exact same34 hi (chk_whole h hi.1.1) ⟨(chk_flags h).1, (chk_flags h).2.1, (chk_flags h).2.2, chk_secret h⟩
        (.inr (not_ok (vtu_failed hv)))
    | done _ _ _ _ _ hv =>
      obtain ⟨e1, e2, e3⟩ := vtu_flags hv
      obtain ⟨hs, _⟩ := vtu_secret hv
      exact ⟨flags_same (vtu_none_whole hv hi.1.1) e1 e3 (hs .puk (by decide)) hi.1,
        fun hn => absurd (.inl ⟨i, rfl, h, [], rfl⟩) hn⟩
  | ga h => exact same34 hi hi.1.1 ⟨rfl, rfl, rfl, rfl, rfl⟩ (.inl (by rw [h]; decide))
  | put h _ _ _ he =>
    refine same34 hi ?_ ?_ (.inl (by rw [h]; decide))
    · cases he <;> exact fun w => by have := hi.1.1 w; cases w <;> exact this
    cases he <;> exact ⟨rfl, rfl, rfl, rfl, rfl⟩
  | adm h _ _ _ he =>
    refine same34 hi ?_ ?_ (.inl (by rcases h with h | h | h <;> rw [h] <;> decide))
    · cases he with
      | bad => exact hi.1.1
      | done _ _ _ hf hm =>
        intro w
        have := hi.1.1 w
        cases w
        · show Whole f'.pin; rw [hf.pin]; exact this
        · show Whole f'.puk; rw [hf.puk]; exact this
    cases he with
    | bad => exact ⟨rfl, rfl, rfl, rfl, rfl⟩
    | done _ _ _ hf hm => rw [hf.pin, hf.puk]; exact ⟨hm, hf.pinDflt, hf.pukDflt, rfl, rfl⟩
  | set h _ _ he =>
    cases he with
    | bad _ h => exact bad h
    | half _ h => exact absurd h hA
    | done =>
      have := same34 (f := f) (f' := f) (r := r) (i := i) (a := .sw 0x9000) hi hi.1.1 ⟨rfl, rfl, rfl, rfl, rfl⟩ (.inl (by rw [h]; decide))
      exact ⟨⟨fun w => by have := hi.1.1 w; cases w <;> exact this, this.1.2.1, _, rfl, says_ite⟩, this.2⟩
  | reset h _ _ _ he =>
    cases he with
    | bad _ h => exact bad h
    | done _ _ _ _ _ _ _ _ hf =>
      have e := (hf.onReset rfl).resolve_left hA
      rw [e]
      exact ⟨factory_flags.1, fun _ => factory_flags.2⟩
  | info h =>
    refine same34 hi hi.1.1 ⟨rfl, rfl, rfl, rfl, rfl⟩ (.inl ⟨?_, ?_⟩)
    · intro e; rw [e] at h; exact absurd h (by decide)
    · intro e; rw [e] at h; exact absurd h (by decide)

theorem peffCut34 {f' : Flash} (h : PEff noFault x i f r .cut f' r') : f' = f := by
  have no : ¬ noFault .cut := fun h => by (cases h)
  cases h with
  | verify _ _ _ _ he => cases he <;> rfl
  | chg _ _ _ _ he => cases he with
    | bad => rfl
    | cut h => exact absurd h no
  | rrc _ _ _ _ he => cases he with
    | bad => rfl
    | cut h => exact absurd h no
  | put _ _ _ _ he => cases he <;> rfl
  | adm _ _ _ _ he => cases he with
    | bad => rfl
    | cut h => exact absurd h no
  | set _ _ _ he => cases he with
    | bad => rfl
    | cut h => exact absurd h no
  | reset _ _ _ _ he => cases he with
    | bad => rfl
    | cut h => exact absurd h no
  | _ => rfl

theorem inv34_step (hx : x.Ok) {s : St} {log : List Entry} {op : Op} {env : Env} (henv : env.all noFault)
    (hi : Inv34 s log) : Inv34 (step x s op env).1 ((s, op, (step x s op env).2) :: log) := by
  have hA : ¬ noFault .fail := fun h => by (cases h)
  have hA' : ¬ noFault .cut := fun h => by (cases h)
  have he := step_eff (A := noFault) hx s op henv
  generalize step x s op env = q at he ⊢
  obtain ⟨s', o'⟩ := q
  have run : ∀ {f : Flash} {r : Ram} {log}, Inv34 ⟨f, some r⟩ log → Flags f ∧ (¬ PinFlagStale log → PinFlag f) := by
    intro f r log h
    rcases h with ⟨h, _⟩ | h
    · cases h
    · exact h
  have stale : ∀ {s : St} {op o}, (∀ i, op ≠ .apdu i) → (∀ rnd, op = .factory rnd → o = .none) →
      ¬ PinFlagStale ((s, op, o) :: log) → ¬ PinFlagStale log := by
    intro s op o h1 h2 hn hs
    refine hn (.inr ⟨hs, ?_, ?_, h2⟩)
    · rintro ⟨i, e, _⟩; exact h1 i e
    · rintro ⟨i, e, _⟩; exact h1 i e
  cases he with
  | off f op h =>
    rcases hi with hi | ⟨h1, h2⟩
    · exact .inl hi
    · refine .inr ⟨h1, fun hn => h2 fun hs => hn (.inr ⟨hs, ?_, ?_, ?_⟩)⟩
      · rintro ⟨i, e, _, _, d, h⟩; cases h
      · rintro ⟨i, e, _, d, h⟩; cases h
      · exact fun _ _ => rfl
  | apdu f r i a f' r' h => exact .inr (peff34 (run hi) h)
  | apduCut f r i f' r' h =>
    rw [peffCut34 h]
    have := run hi
    refine .inr ⟨this.1, fun hn => this.2 fun hs => hn (.inr ⟨hs, ?_, ?_, ?_⟩)⟩
    · rintro ⟨i, e, _, _, d, h⟩; cases h
    · rintro ⟨i, e, _, d, h⟩; cases h
    · rintro rnd e; cases e
  | desel f r =>
    have := run hi
    exact .inr ⟨this.1, fun hn => this.2 (stale (by intro i e; cases e) (by intro i e; cases e) hn)⟩
  | fac f r rnd a f' r' h =>
    rw [(h.onReset rfl).resolve_left hA]
    exact .inr ⟨factory_flags.1, fun _ => factory_flags.2⟩
  | facCut f r rnd f' h h' => exact absurd h' hA'
  | boot f o rnd a f' r' h =>
    rw [(h.onBoot rfl).resolve_left hA]
    split
    · next ha =>
      rcases hi with ⟨_, hi⟩ | ⟨h1, h2⟩
      · rw [show _ = _ from hi] at ha; cases ha
      · exact .inr ⟨h1, fun hn => h2 (stale (by intro i e; cases e) (by intro i e; cases e) hn)⟩
    · exact .inr ⟨factory_flags.1, fun _ => factory_flags.2⟩
  | bootCut f o rnd f' h h' => exact absurd h' hA'

theorem inv34_run (hx : x.Ok) (hf : f.alg = none) {h : List (Op × Env)} (hh : ∀ e ∈ h, e.2.all noFault) :
    Inv34 (after x f h) (logOf x f h) :=
  run_inv (A := noFault) (fun _ _ _ _ he hi => inv34_step hx he hi) hh (.inl ⟨rfl, hf⟩)

theorem says_eq {o : Option Byte} {p : Prop} [Decidable p] (h : Says o p) : o = some (if p then 1 else 0) := by
  rcases h with ⟨h, hp⟩ | ⟨h, hp⟩
  · rw [if_pos hp]; exact h
  · rw [if_neg hp]; exact h

theorem step_post {P : Reply → Prop} {env : Env} (he : env.all A)
    (h : wp A (process x i) (fun a _ _ => P a) (fun _ _ _ => False) (fun _ _ => False) f r) :
    ∃ a, (step x ⟨f, some r⟩ (.apdu i) env).2 = .reply a ∧ P a := by
  rcases exec_of_wp (P := fun o f1 r1 => match o with
    | .cut => False
    | .done a' => P a') (wp_mono h (fun _ _ _ h => h) (fun _ _ _ h => h.elim) (fun _ _ h => h)) he with
    ⟨_, _, _, h⟩ | ⟨f1, r1, a1, e, h⟩
  · exact h.elim
  · refine ⟨a1, ?_, h⟩
    show (exec (process x i) f r env).2 = _
    rw [e]

theorem meta_pin {w : Which} {v : Byte} (hi : IsMeta i (if w = .pin then 0x80 else 0x81)) (hw : Wholes f)
    (hv : f.dfltOf w = some v) {env : Env} (he : env.all noFault) :
    MetaPin (step x ⟨f, some r⟩ (.apdu i) env).2 v := by
  obtain ⟨h1, h2, h3, h4, h5⟩ := hi
  have key : ∃ a, (step x ⟨f, some r⟩ (.apdu i) env).2 = .reply a ∧
      ∃ d n, a = .resp [1, 1, 0xFF, 5, 1, v, 6, 2, d, n] 0x9000 := by
    apply step_post he
    apply process_disp (.inl h1)
    rw [show dispatch x i = getMetadata x i.c by simp [dispatch, h2]]
    generalize pre i.c r = r
    have hp : (i.c.p2 == 0x80 || i.c.p2 == 0x81) = true := by rw [h4]; cases w <;> rfl
    have hww : (if (i.c.p2 == 0x80) = true then Which.pin else .puk) = w := by rw [h4]; cases w <;> rfl
    unfold getMetadata defaultRetries
    apply wp_ite <;> intro h
    · rw [h3] at h; cases h
    apply wp_ite <;> intro h
    · simp [Apdu.Capdu.lc, h5] at h
    rw [if_pos hp, hww]
    have hA : ¬ noFault .fail := fun h => by (cases h)
    have hC : ¬ noFault .cut := fun h => by (cases h)
    wps
    all_goals try exact absurd ‹_› hA
    all_goals try exact absurd ‹_› hC
    · next v' hv' =>
      rw [hv] at hv'; cases hv'
      apply wp_onPin Pin.rdDflt_wp
      · rintro a p q ⟨rfl, rfl⟩
        rw [set_get_F, set_get_R]
        wps
        all_goals
          apply wp_onPin Pin.getRetries_wp
          · rintro n p q ⟨hr, rfl, rfl⟩
            rw [set_get_F, set_get_R]
            cases hr with
            | io h =>
              obtain ⟨q, n, d, e, h6, _⟩ := hw w
              rcases h with h | h
              · exact absurd h hA
              · rw [h q e] at h6; cases h6
            | _ => exact wp_pure ⟨_, _, rfl⟩
          · exact fun p q h => absurd h.1 hC
      · exact fun p q h => absurd h.1 hC
    · next h => rw [hv] at h; cases h
  obtain ⟨_, e, d, n, rfl⟩ := key
  exact ⟨d, n, e⟩

theorem meta_mgmt {v : Byte} (hi : IsMeta i 0x9B) (hv : f.mgmt.bind (·.dflt) = some v) {env : Env}
    (he : env.all noFault) : MetaMgmt (step x ⟨f, some r⟩ (.apdu i) env).2 v := by
  obtain ⟨h1, h2, h3, h4, h5⟩ := hi
  have key : ∃ a, (step x ⟨f, some r⟩ (.apdu i) env).2 = .reply a ∧
      a = .resp [1, 1, 3, 2, 2, 0, 1, 5, 1, v] 0x9000 := by
    apply step_post he
    apply process_disp (.inl h1)
    rw [show dispatch x i = getMetadata x i.c by simp [dispatch, h2]]
    generalize pre i.c r = r
    have hA : ¬ noFault .fail := fun h => by (cases h)
    have hC : ¬ noFault .cut := fun h => by (cases h)
    unfold getMetadata
    apply wp_ite <;> intro h
    · rw [h3] at h; cases h
    apply wp_ite <;> intro h
    · simp [Apdu.Capdu.lc, h5] at h
    rw [if_neg (by rw [h4]; decide), if_pos (by rw [h4]; decide)]
    wps
    all_goals try exact absurd ‹_› hA
    all_goals try exact absurd ‹_› hC
    · next h => rw [hv] at h; cases h; rfl
    · next h => rw [hv] at h; cases h
  obtain ⟨_, e, rfl⟩ := key
  exact e

/-- **C34 (PUK and management key).** Take any history of a device whose storage starts out without the applet, in which
the storage works. Then GET METADATA for the PUK and for the management key answers with the flag 1 exactly if the
value in force is the factory value. -/
theorem C34_puk_and_mgmt (hx : x.Ok) (hf : f.alg = none) {h : List (Op × Env)} (hh : ∀ e ∈ h, e.2.all noFault)
    {f' : Flash} (hs : after x f h = ⟨f', some r⟩) {env : Env} (he : env.all noFault) :
    (∀ i, IsMeta i 0x81 → MetaPin (step x (after x f h) (.apdu i) env).2
      (if secret f'.puk = some factoryPuk then 1 else 0)) ∧
    (∀ i, IsMeta i 0x9B → MetaMgmt (step x (after x f h) (.apdu i) env).2
      (if f'.mgmt.map (·.key) = some factoryMgmt then 1 else 0)) := by
  have hi := inv34_run hx hf hh
  rw [hs] at hi ⊢
  rcases hi with ⟨h, _⟩ | ⟨⟨hw, hp, m, hm, hk⟩, _⟩
  · cases h
  · constructor
    · exact fun i hi => meta_pin (w := .puk) hi hw (says_eq hp) he
    · refine fun i hi => meta_mgmt hi ?_ he
      show f'.mgmt.bind (·.dflt) = _
      rw [show f'.mgmt = some m from hm]
      simp only [Option.bind_some, Option.map_some, Option.some.injEq]
      exact says_eq hk

/-- **C34 (PIN), partial.** The same for the PIN, unless it was set with RESET RETRY COUNTER and since then neither
changed with CHANGE REFERENCE DATA nor reset. Missing is that case: there the flag keeps its old value, see
`C34_refuted`. -/
theorem C34_pin_partial (hx : x.Ok) (hf : f.alg = none) {h : List (Op × Env)} (hh : ∀ e ∈ h, e.2.all noFault)
    {f' : Flash} (hs : after x f h = ⟨f', some r⟩) (hn : ¬ PinFlagStale (logOf x f h)) {env : Env} (he : env.all noFault)
    (i : In) (hi : IsMeta i 0x80) :
    MetaPin (step x (after x f h) (.apdu i) env).2 (if secret f'.pin = some factoryPin then 1 else 0) := by
  have h := inv34_run hx hf hh
  rw [hs] at h ⊢
  rcases h with ⟨h, _⟩ | ⟨hw, hp⟩
  · cases h
  · exact meta_pin (w := .pin) hi hw.1 (says_eq (hp hn)) he

end Verif.Piv
