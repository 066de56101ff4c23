import Verif.Spec.Touch
import Verif.Base.Keeps
import Verif.Lemmas.OathStep
import Verif.Lemmas.OathCode
set_option linter.unusedSimpArgs false
set_option linter.unusedTactic false
set_option linter.unreachableTactic false
/-
Lemmas for C112: the touch slots.
-/
namespace Verif.Oath
open Verif.Spec.Oath Verif.Spec.Touch Cmd

/-- The touch slots on flash and in memory are the same. -/
def SamePass (f f' : Flash) : Prop := f'.pass = f.pass
def SameSlots (r r' : Ram) : Prop := r'.slot0 = r.slot0 ∧ r'.slot1 = r.slot1

instance : PreOrd SamePass := ⟨fun _ => rfl, fun h h' => Eq.trans h' h⟩
instance : PreOrd SameSlots := ⟨fun _ => ⟨rfl, rfl⟩, fun h h' => ⟨h'.1.trans h.1, h'.2.trans h.2⟩⟩

variable {x : Ext} {i : In}

theorem updRec_tp {n : Nat} {q : Rec} {f f' : Flash} (h : updRec n q f = some f') : SamePass f f' := by
  unfold updRec at h
  obtain ⟨o, ho, rfl⟩ := Option.map_eq_some_iff.mp h
  rfl

theorem updChal_tp {n : Nat} {c : Bytes} {f f' : Flash} (h : updChal n c f = some f') : SamePass f f' := by
  unfold updChal at h
  obtain ⟨o, ho, rfl⟩ := Option.map_eq_some_iff.mp h
  rfl

theorem map_tp {g : OathFile → Flash} {f f' : Flash} (h : Option.map g f.oath = some f') (hg : ∀ o, (g o).pass = f.pass) : SamePass f f' := by
  obtain ⟨o, ho, rfl⟩ := Option.map_eq_some_iff.mp h
  exact hg o

/-- Closes the writes. -/
macro "tp1" : tactic => `(tactic| (intro f f' h; first
  | exact updRec_tp h
  | exact updChal_tp h
  | (cases h; rfl)
  | exact map_tp h (fun _ => rfl)))

theorem putScan_tp {name : Bytes} {n j u k : Nat} : Moves SamePass (putScan name n j u k) := by
  induction k generalizing j u with
  | zero => unfold putScan; mvs (fail)
  | succ k ih => unfold putScan readRec; mvs (with_reducible exact ih)
theorem renameScan_tp {a b : Bytes} {n j u k : Nat} : Moves SamePass (renameScan a b n j u k) := by
  induction k generalizing j u with
  | zero => unfold renameScan; mvs (fail)
  | succ k ih => unfold renameScan readRec; mvs (with_reducible exact ih)
theorem find_tp {name : Bytes} {j k : Nat} : Moves SamePass (find name j k) := by
  induction k generalizing j with
  | zero => unfold find; mvs (fail)
  | succ k ih => unfold find readRec; mvs (with_reducible exact ih)
theorem listLoop_tp {n le k : Nat} {out : Bytes} : Moves SamePass (listLoop n le k out) := by
  induction k generalizing out with
  | zero => unfold listLoop; mvs (fail)
  | succ k ih => unfold listLoop readRec; mvs (with_reducible exact ih)
theorem enforce_tp {j : Nat} {q : Rec} {c : Bytes} : Moves SamePass (enforceIncreasing j q c) := by
  unfold enforceIncreasing; mvs tp1
theorem calcOne_tp {t : Bool} {j : Nat} {q : Rec} {c : Bytes} : Moves SamePass (calcOne x t j q c) := by
  unfold calcOne; mvs (first | with_reducible exact enforce_tp | tp1)
theorem calcLoop_tp {n le k : Nat} {out : Bytes} : Moves SamePass (calcLoop x n le k out) := by
  induction k generalizing out with
  | zero => unfold calcLoop; mvs (fail)
  | succ k ih => unfold calcLoop readRec; mvs (first | with_reducible exact ih | with_reducible exact calcOne_tp)
theorem calcStart_tp : Moves SamePass (calcStart i) := by
  unfold calcStart; mvs (fail)
theorem factor_tp {off j : Nat} {q : Rec} : Moves SamePass (factor i off j q) := by
  unfold factor; mvs (first | with_reducible exact enforce_tp | tp1)
theorem nRecords_tp : Moves SamePass nRecords := by unfold nRecords; mvs (fail)

/-- Closes the calls. -/
macro "tp2" : tactic => `(tactic| first
  | with_reducible exact nRecords_tp
  | with_reducible exact putScan_tp
  | with_reducible exact find_tp
  | with_reducible exact renameScan_tp
  | with_reducible exact listLoop_tp
  | with_reducible exact calcLoop_tp
  | with_reducible exact calcStart_tp
  | with_reducible exact factor_tp
  | tp1)

theorem put_tp : Moves SamePass (put i) := by unfold put; mvs tp2
theorem rename_tp : Moves SamePass (rename i) := by unfold rename readRec; mvs tp2
theorem list_tp : Moves SamePass (list i) := by unfold list; mvs tp2
theorem calculate_tp : Moves SamePass (calculate x i) := by unfold calculate; mvs tp2
theorem calculateAll_tp : Moves SamePass (calculateAll x i) := by unfold calculateAll; mvs tp2
theorem sendRemaining_tp : Moves SamePass (sendRemaining x i) := by
  unfold sendRemaining; mvs (first | with_reducible exact list_tp | with_reducible exact calculateAll_tp)
theorem select_tp : Moves SamePass (select i) := by unfold select; mvs tp2
theorem setCode_tp : Moves SamePass (setCode x i) := by unfold setCode; mvs tp2
theorem validate_tp : Moves SamePass (validate x i) := by unfold validate; mvs tp2
theorem install_tp {b : Bool} {rnd : Bytes} : Moves SamePass (install b rnd) := by unfold install; mvs tp2

theorem process_tp (h2 : i.c.ins ≠ 0x02) (h5 : i.c.ins ≠ 0x55) : Moves SamePass (process x i) := by
  unfold process
  mvs (first
    | with_reducible exact put_tp
    | with_reducible exact rename_tp
    | with_reducible exact list_tp
    | with_reducible exact calculate_tp
    | with_reducible exact calculateAll_tp
    | with_reducible exact sendRemaining_tp
    | with_reducible exact select_tp
    | with_reducible exact setCode_tp
    | with_reducible exact validate_tp
    | (exfalso; simp_all; done))

/-! ### Memory -/

/-- Closes the changes of other variables. -/
macro "ts1" : tactic => `(tactic| (intro r; first | exact ⟨rfl, rfl⟩ | (constructor <;> (split <;> rfl))))

theorem putScan_ts {name : Bytes} {n j u k : Nat} : Keeps SameSlots (putScan name n j u k) := by
  induction k generalizing j u with
  | zero => unfold putScan; kps (fail)
  | succ k ih => unfold putScan readRec; kps (with_reducible exact ih)
theorem find_ts {name : Bytes} {j k : Nat} : Keeps SameSlots (find name j k) := by
  induction k generalizing j with
  | zero => unfold find; kps (fail)
  | succ k ih => unfold find readRec; kps (with_reducible exact ih)
theorem renameScan_ts {a b : Bytes} {n j u k : Nat} : Keeps SameSlots (renameScan a b n j u k) := by
  induction k generalizing j u with
  | zero => unfold renameScan; kps (fail)
  | succ k ih => unfold renameScan readRec; kps (with_reducible exact ih)
theorem listLoop_ts {n le k : Nat} {out : Bytes} : Keeps SameSlots (listLoop n le k out) := by
  induction k generalizing out with
  | zero => unfold listLoop; kps (fail)
  | succ k ih => unfold listLoop readRec; kps (first | with_reducible exact ih | ts1)
theorem enforce_ts {j : Nat} {q : Rec} {c : Bytes} : Keeps SameSlots (enforceIncreasing j q c) := by
  unfold enforceIncreasing; kps ts1
theorem calcOne_ts {t : Bool} {j : Nat} {q : Rec} {c : Bytes} : Keeps SameSlots (calcOne x t j q c) := by
  unfold calcOne; kps (first | with_reducible exact enforce_ts | ts1)
theorem calcLoop_ts {n le k : Nat} {out : Bytes} : Keeps SameSlots (calcLoop x n le k out) := by
  induction k generalizing out with
  | zero => unfold calcLoop; kps (fail)
  | succ k ih => unfold calcLoop readRec; kps (first | with_reducible exact ih | with_reducible exact calcOne_ts | ts1)
theorem calcStart_ts : Keeps SameSlots (calcStart i) := by
  unfold calcStart; kps ts1
theorem factor_ts {off j : Nat} {q : Rec} : Keeps SameSlots (factor i off j q) := by
  unfold factor; kps (first | with_reducible exact enforce_ts | ts1)
theorem nRecords_ts : Keeps SameSlots nRecords := by unfold nRecords; kps (fail)

/-- Closes the calls. -/
macro "ts2" : tactic => `(tactic| first
  | with_reducible exact nRecords_ts
  | with_reducible exact putScan_ts
  | with_reducible exact find_ts
  | with_reducible exact renameScan_ts
  | with_reducible exact listLoop_ts
  | with_reducible exact calcLoop_ts
  | with_reducible exact calcStart_ts
  | with_reducible exact factor_ts
  | ts1)

theorem put_ts : Keeps SameSlots (put i) := by unfold put; kps ts2
theorem rename_ts : Keeps SameSlots (rename i) := by unfold rename readRec; kps ts2
theorem list_ts : Keeps SameSlots (list i) := by unfold list; kps ts2
theorem calculate_ts : Keeps SameSlots (calculate x i) := by unfold calculate; kps ts2
theorem calculateAll_ts : Keeps SameSlots (calculateAll x i) := by unfold calculateAll; kps ts2
theorem sendRemaining_ts : Keeps SameSlots (sendRemaining x i) := by
  unfold sendRemaining; kps (first | with_reducible exact list_ts | with_reducible exact calculateAll_ts)
theorem select_ts : Keeps SameSlots (select i) := by unfold select; kps ts2
theorem setCode_ts : Keeps SameSlots (setCode x i) := by unfold setCode; kps ts2
theorem validate_ts : Keeps SameSlots (validate x i) := by unfold validate; kps ts2
theorem install_ts {b : Bool} {rnd : Bytes} : Keeps SameSlots (install b rnd) := by unfold install; kps ts2

theorem process_ts (h2 : i.c.ins ≠ 0x02) (h5 : i.c.ins ≠ 0x55) : Keeps SameSlots (process x i) := by
  unfold process
  kps (first
    | with_reducible exact put_ts
    | with_reducible exact rename_ts
    | with_reducible exact list_ts
    | with_reducible exact calculate_ts
    | with_reducible exact calculateAll_ts
    | with_reducible exact sendRemaining_ts
    | with_reducible exact select_ts
    | with_reducible exact setCode_ts
    | with_reducible exact validate_ts
    | ts1
    | (exfalso; simp_all; done))

/-! ### The slots of the machine and of the device -/

/-- How an action is stored. -/
def slotOf : Action → Slot
  | .nothing => .off
  | .password pw e => .static pw e
  | .code j n e => .oath (j * recSize) n e

def pairOf (l : Slots) : Slot × Slot := (slotOf l.short, slotOf l.long)

/-- The slots are those of the machine. -/
structure Shows (f : Flash) (r : Ram) (m : Mach) : Prop where
  saved : f.pass = m.saved.map pairOf
  live : (r.slot0, r.slot1) = pairOf m.live

theorem shows_off (f : Flash) (m : Mach) (h : f.pass = m.saved.map pairOf) : Shows f Ram.init ⟨m.saved, .off⟩ := ⟨h, rfl⟩

theorem hits_of (a : Action) (j : Nat) : (slotOf a).hits (j * recSize) = a.of j := by
  cases a with
  | nothing => rfl
  | password => rfl
  | code k n e =>
    show (k * recSize == j * recSize) = (k == j)
    by_cases h : k = j
    · simp [h]
    · have : k * recSize ≠ j * recSize := fun h' => h (Nat.eq_of_mul_eq_mul_right (by decide) h')
      simp [h, this]

theorem dump_of (a : Action) : dumpSlot (slotOf a) = a.shown := by cases a <;> rfl

theorem pair_put (p : Byte) (a : Action) (l : Slots) (r : Ram) (h : (r.slot0, r.slot1) = pairOf l) :
    ((putSlot p (slotOf a) r).slot0, (putSlot p (slotOf a) r).slot1) = pairOf (l.put p a) := by
  have h0 : r.slot0 = slotOf l.short := congrArg Prod.fst h
  have h1 : r.slot1 = slotOf l.long := congrArg Prod.snd h
  unfold putSlot Slots.put
  split
  · show (slotOf a, r.slot1) = _
    rw [h1]; rfl
  · show (r.slot0, slotOf a) = _
    rw [h0]; rfl

section
variable {A : Fault → Prop} {f : Flash} {r : Ram} {E : Reply → Flash → Ram → Prop} {X : Flash → Ram → Prop}

theorem wp_first {o : OathFile} (ho : f.oath = some o) {name : Bytes} {Q : Option (Nat × Rec) → Flash → Ram → Prop}
    (hnone : (∀ q ∈ o.recs, q.name ≠ name) → Q none f r)
    (hsome : ∀ j q, o.recs[j]? = some q → q.name = name → (∀ p ∈ o.recs.take j, p.name ≠ name) → Q (some (j, q)) f r)
    (hio : A .fail → E ioErr f r) (hcut : A .cut → X f r) :
    wp A (find name 0 o.recs.length) Q E X f r := by
  have key : ∀ k j, j + k = o.recs.length → (∀ q ∈ o.recs.take j, q.name ≠ name) →
      wp A (find name j k) Q E X f r := by
    intro k
    induction k with
    | zero =>
      intro j hj hall
      rw [show j = o.recs.length by omega, List.take_length] at hall
      exact wp_pure (hnone hall)
    | succ k ih =>
      intro j hj hall
      simp only [find, Cmd.pure_bind]
      apply wp_bind
      apply wp_readRec ho (by omega)
      · intro q hq
        apply wp_ite
        · intro h; exact wp_pure (hsome j q hq (by simpa using h) hall)
        · intro h
          apply ih (j + 1) (by omega)
          intro p hp
          rw [List.take_add_one, List.mem_append, hq] at hp
          rcases hp with hp | hp
          · exact hall p hp
          · simp at hp; subst hp; simpa using h
      · exact hio
      · exact hcut
  exact key _ 0 (by omega) (by simp)

theorem means_unique {s : St} {d : Bytes} {j k : Nat} {q t : Rec} (h : Means s d j q) (h' : Means s d k t) : j = k ∧ q = t := by
  obtain ⟨o, ho, hq, hj, hf⟩ := h
  obtain ⟨o', ho', hq', hk, hf'⟩ := h'
  rw [ho] at ho'
  cases ho'
  have hn : q.name = t.name := nameReq_unique hq hq'
  have hjk : j = k := by
    rcases Nat.lt_trichotomy j k with h | h | h
    · exact absurd hn (hf' q (List.mem_of_getElem? (by rw [List.getElem?_take_of_lt h]; exact hj)))
    · exact h
    · exact absurd hn.symm (hf t (List.mem_of_getElem? (by rw [List.getElem?_take_of_lt h]; exact hk)))
  subst hjk
  rw [hj] at hk
  exact ⟨rfl, Option.some.inj hk⟩

/-- What the machine says about a command that changes slots, or not. -/
def Turn (s : St) (m : Mach) (op : Op) (f' : Flash) (r' : Ram) : Prop :=
  ∃ m', Shows f' r' m' ∧ ((∃ l, Changes s m.live op l ∧ m' = ⟨some l, l⟩) ∨ ((∀ l, ¬ Changes s m.live op l) ∧ m' = m))

def TurnCut (s : St) (m : Mach) (op : Op) (f' : Flash) : Prop :=
  f'.pass = m.saved.map pairOf ∨ ∃ l, Changes s m.live op l ∧ f'.pass = some (pairOf l)

theorem delete_turn {s : St} {m : Mach} (hm : Shows s.flash s.ram m) (hi : i.c.ins = 0x02) (hv : s.ram.validated = true) :
    wp cutsOnly (delete i) (fun _ => Turn s m (.apdu i)) (fun _ => Turn s m (.apdu i)) (fun f' _ => TurnCut s m (.apdu i) f') s.flash s.ram := by
  have stay : (∀ j q, i.c.p1 = 0 → i.c.p2 = 0 → Means s i.c.data j q → m.live.drop j = none) → Turn s m (.apdu i) s.flash s.ram := by
    intro h
    refine ⟨m, hm, Or.inr ⟨?_, rfl⟩⟩
    rintro l ⟨_, ⟨_, h1, h2, j, q, h3, h4⟩ | ⟨h1, _⟩⟩
    · rw [h j q h1 h2 h3] at h4; cases h4
    · rw [hi] at h1; exact absurd h1 (by decide)
  simp only [delete, Cmd.throw_bind]
  apply wp_ite
  · intro h
    refine wp_throw (stay fun j q h1 h2 _ => ?_)
    simp [h1, h2] at h
  · intro h12
    have h12 := p12_neg h12
    apply wp_bind
    apply wp_parse (parseName_safe _)
    · intro n hn _
      have hq := (parseName_ok _ _).mp hn
      apply wp_bind
      apply wp_nRecords
      · intro o ho
        apply wp_bind
        apply wp_first ho
        · intro hn
          refine wp_throw (stay ?_)
          rintro j q _ _ ⟨o', ho', hq', hj, _⟩
          rw [ho] at ho'
          cases ho'
          exact absurd (nameReq_unique hq' hq) (hn q (List.mem_of_getElem? hj))
        · intro j q hj hjn hfirst
          have hmeans : Means s i.c.data j q := ⟨o, ho, by rw [hjn]; exact hq, hj, by rw [hjn]; exact hfirst⟩
          have hl0 : s.ram.slot0 = slotOf m.live.short := congrArg Prod.fst hm.live
          have hl1 : s.ram.slot1 = slotOf m.live.long := congrArg Prod.snd hm.live
          have fin : ∀ (f1 : Flash) (r1 : Ram), f1.oath = some o → Turn s m (.apdu i) f1 r1 → TurnCut s m (.apdu i) f1 →
              wp cutsOnly (do
                Cmd.wrOr (updRec j { q with name := [] }) ioErr
                return Reply.sw SW.ok) (fun _ => Turn s m (.apdu i)) (fun _ => Turn s m (.apdu i)) (fun f' _ => TurnCut s m (.apdu i) f') f1 r1 := by
            intro f1 r1 h1 ⟨m', h2, h3⟩ h4
            apply wp_bind
            apply wp_updRec (o := o) h1
            · exact wp_pure ⟨m', ⟨h2.saved, h2.live⟩, h3⟩
            · intro h; exact absurd rfl h
            · intro _; exact h4
          have wr : ∀ (r1 : Ram) (l : Slots), (r1.slot0, r1.slot1) = pairOf l → m.live.drop j = some l →
              wp cutsOnly (do
                let r ← Cmd.get
                Cmd.wrOr (updPass r) ioErr) (fun _ f1 r1 => f1.oath = some o ∧ Turn s m (.apdu i) f1 r1 ∧ TurnCut s m (.apdu i) f1)
                (fun _ => Turn s m (.apdu i)) (fun f' _ => TurnCut s m (.apdu i) f') s.flash r1 := by
            intro r1 l h1 h2
            have hch : Changes s m.live (.apdu i) l := ⟨hv, Or.inl ⟨hi, h12.1, h12.2, j, q, hmeans, h2⟩⟩
            apply wp_bind
            apply wp_get
            apply wp_wrOr
            · intro f' hf
              cases hf
              exact ⟨ho, ⟨⟨some l, l⟩, ⟨congrArg some h1, h1⟩, Or.inl ⟨l, hch, rfl⟩⟩, Or.inr ⟨l, hch, congrArg some h1⟩⟩
            · intro hf; cases hf
            · intro h; exact absurd rfl h
            · intro _; exact Or.inl hm.saved
          apply wp_bind
          refine wp_mono (Q := fun _ f1 r1 => f1.oath = some o ∧ Turn s m (.apdu i) f1 r1 ∧ TurnCut s m (.apdu i) f1) ?_
            (fun _ f1 r1 h => fin f1 r1 h.1 h.2.1 h.2.2) (fun _ _ _ h => h) (fun _ _ h => h)
          unfold passDeleteOath
          apply wp_bind
          apply wp_get
          rw [hl0, hl1, hits_of, hits_of]
          apply wp_ite
          · intro h
            apply wp_bind
            apply wp_mod
            exact wr _ ⟨.nothing, m.live.long⟩ (by show (Slot.off, s.ram.slot1) = _; rw [hl1]; rfl) (by unfold Slots.drop; rw [if_pos h])
          · intro h
            apply wp_ite
            · intro h1
              apply wp_bind
              apply wp_mod
              exact wr _ ⟨m.live.short, .nothing⟩ (by show (s.ram.slot0, Slot.off) = _; rw [hl0]; rfl) (by unfold Slots.drop; rw [if_neg h, if_pos h1])
            · intro h1
              refine wp_pure ⟨ho, stay ?_, Or.inl hm.saved⟩
              intro k t _ _ hk
              rw [(means_unique hk hmeans).1]
              unfold Slots.drop
              rw [if_neg h, if_neg h1]
        · intro h; exact absurd rfl h
        · intro _; exact Or.inl hm.saved
      · rintro (h | h)
        · refine stay ?_
          rintro j q _ _ ⟨o', ho', _⟩
          rw [h] at ho'; cases ho'
        · exact absurd rfl h
      · intro _; exact Or.inl hm.saved
    · intro sw hsw
      refine stay ?_
      rintro j q _ _ ⟨_, _, hq, _⟩
      exact absurd ((parseName_ok _ _).mpr hq) (not_ok_of_err hsw)

theorem setDefault_turn {s : St} {m : Mach} (hm : Shows s.flash s.ram m) (hi : i.c.ins = 0x55) (hv : s.ram.validated = true) :
    wp cutsOnly (setDefault i) (fun _ => Turn s m (.apdu i)) (fun _ => Turn s m (.apdu i)) (fun f' _ => TurnCut s m (.apdu i) f') s.flash s.ram := by
  have stay : ((i.c.p1 = 1 ∨ i.c.p1 = 2) → (i.c.p2 = 0 ∨ i.c.p2 = 1) → ∀ j q, Means s i.c.data j q → Totp q) → Turn s m (.apdu i) s.flash s.ram := by
    intro h
    refine ⟨m, hm, Or.inr ⟨?_, rfl⟩⟩
    rintro l ⟨_, ⟨h1, _⟩ | ⟨_, h1, h2, j, q, h3, h4, _⟩⟩
    · rw [hi] at h1; exact absurd h1 (by decide)
    · exact h4 (h h1 h2 j q h3)
  simp only [setDefault, Cmd.throw_bind]
  apply wp_ite
  · intro h
    refine wp_throw (stay fun h1 => ?_)
    rcases h1 with h1 | h1 <;> simp [h1] at h
  · intro hp1
    have hp : i.c.p1 = 1 ∨ i.c.p1 = 2 := by
      simp only [Bool.and_eq_true, bne_iff_ne, ne_eq] at hp1
      exact Decidable.or_iff_not_not_and_not.mpr hp1
    apply wp_ite
    · intro h
      refine wp_throw (stay fun _ h1 => ?_)
      rcases h1 with h1 | h1 <;> simp [h1] at h
    · intro hp2
      have hp2 : i.c.p2 = 0 ∨ i.c.p2 = 1 := by
        simp only [Bool.and_eq_true, bne_iff_ne, ne_eq] at hp2
        exact Decidable.or_iff_not_not_and_not.mpr hp2
      apply wp_bind
      apply wp_parse (parseName_safe _)
      · intro n hn _
        have hq := (parseName_ok _ _).mp hn
        apply wp_bind
        apply wp_nRecords
        · intro o ho
          apply wp_bind
          apply wp_first ho
          · intro hn
            refine wp_throw (stay fun _ _ => ?_)
            rintro j q ⟨o', ho', hq', hj, _⟩
            rw [ho] at ho'
            cases ho'
            exact absurd (nameReq_unique hq' hq) (hn q (List.mem_of_getElem? hj))
          · intro j q hj hjn hfirst
            have hmeans : Means s i.c.data j q := ⟨o, ho, by rw [hjn]; exact hq, hj, by rw [hjn]; exact hfirst⟩
            simp only
            apply wp_ite
            · intro ht
              refine wp_throw (stay fun _ _ k t hk => ?_)
              rw [(means_unique hk hmeans).2]
              simpa [Totp] using ht
            · intro ht
              have ht : ¬ Totp q := by simpa [Totp] using ht
              apply wp_bind
              apply wp_mod
              apply wp_bind
              apply wp_get
              apply wp_bind
              have hr : (if (i.c.p1 == 1) = true then { s.ram with slot0 := .oath (j * recSize) q.name i.c.p2 }
                  else { s.ram with slot1 := .oath (j * recSize) q.name i.c.p2 } : Ram)
                  = putSlot i.c.p1 (slotOf (.code j q.name i.c.p2)) s.ram := by
                simp [putSlot, slotOf]
              rw [hr]
              have hpr := pair_put i.c.p1 (.code j q.name i.c.p2) m.live s.ram hm.live
              have hch : Changes s m.live (.apdu i) (m.live.put i.c.p1 (.code j q.name i.c.p2)) :=
                ⟨hv, Or.inr ⟨hi, hp, hp2, j, q, hmeans, ht, rfl⟩⟩
              apply wp_wrOr
              · intro f' hf
                cases hf
                exact wp_pure ⟨⟨some _, _⟩, ⟨congrArg some hpr, hpr⟩, Or.inl ⟨_, hch, rfl⟩⟩
              · intro hf; cases hf
              · intro h; exact absurd rfl h
              · intro _; exact Or.inl hm.saved
          · intro h; exact absurd rfl h
          · intro _; exact Or.inl hm.saved
        · rintro (h | h)
          · refine stay fun _ _ => ?_
            rintro j q ⟨o', ho', _⟩
            rw [h] at ho'; cases ho'
          · exact absurd rfl h
        · intro _; exact Or.inl hm.saved
      · intro sw hsw
        refine stay fun _ _ => ?_
        rintro j q ⟨_, _, hq, _⟩
        exact absurd ((parseName_ok _ _).mpr hq) (not_ok_of_err hsw)

theorem parsePass_run (d : Bytes) : (parsePass d).run = .ok (match wanted d with
    | .ok a => .ok (slotOf a)
    | .error e => .error e) := by
  cases d with
  | nil => rfl
  | cons t d =>
    have hrd : rd (t :: d) 0 = .ok t := rfl
    unfold wanted
    by_cases h0 : t = 0
    · subst h0
      cases d with
      | nil => rfl
      | cons a d =>
        rfl
    · by_cases h2 : t = 2
      · subst h2
        cases d with
        | nil => rfl
        | cons l d =>
          cases d with
          | nil =>
            have : parsePass [2, l] = throw SW.wrongLength := rfl
            rw [this]
            dsimp only
            rw [if_neg h0, if_pos (rfl : (2 : UInt8) = 2), if_neg (by simp)]
            rfl
          | cons b d =>
            have hp : parsePass (2 :: l :: b :: d) = if l > 32 then throw SW.wrongLength else
                if (2 :: l :: b :: d).length != 3 + l.toNat then throw SW.wrongLength else (do
                  let pw ← liftM (rdRange (2 :: l :: b :: d) 2 l.toNat)
                  let e ← liftM (rd (2 :: l :: b :: d) (2 + l.toNat))
                  return .static pw e) := by
              show (if l > 32 then _ else _) = _
              split
              · rfl
              · split <;> rfl
            rw [hp]
            dsimp only
            rw [if_neg h0, if_pos (rfl : (2 : UInt8) = 2)]
            have hgt : l > 32 ↔ ¬ l.toNat ≤ 32 := by
              show (32 : UInt8).toNat < l.toNat ↔ _
              simp
            by_cases hl : l.toNat ≤ 32
            · rw [if_neg (fun h => hgt.mp h hl)]
              by_cases hd : (b :: d).length = l.toNat + 1
              · rw [if_neg (by simp at hd ⊢; omega), if_pos ⟨hl, hd⟩]
                have h1 : rdRange (2 :: l :: b :: d) 2 l.toNat = .ok ((b :: d).take l.toNat) := by
                  unfold rdRange
                  rw [if_pos (by simp at hd ⊢; omega)]
                  rfl
                have h2 : rd (2 :: l :: b :: d) (2 + l.toNat) = .ok ((b :: d).getLastD 0) := by
                  rw [rd_eq_ok, Nat.add_comm 2]
                  show (b :: d)[l.toNat]? = _
                  rw [List.getLastD_eq_getLast?, List.getLast?_eq_getElem?, hd]
                  simp
                  rw [List.getElem?_eq_getElem (by simp at hd ⊢; omega)]
                  rfl
                rw [h1, h2]
                rfl
              · rw [if_pos (by simp at hd ⊢; omega), if_neg (fun h => hd h.2)]
                rfl
            · rw [if_pos (hgt.mpr hl), if_neg (fun h => hl h.1)]
              rfl
      · have hp : parsePass (t :: d) = if (t == 0) = true then _ else if (t == 2) = true then _ else throw SW.wrongData := rfl
        have : parsePass (t :: d) = throw SW.wrongData := by
          rw [hp, if_neg (by simpa using h0), if_neg (by simpa using h2)]
        rw [this]
        dsimp only
        rw [if_neg h0, if_neg h2]
        rfl

theorem passWrite_turn {s : St} {m : Mach} (hm : Shows s.flash s.ram m) (c : Verif.Apdu.Capdu) :
    wp cutsOnly (passWrite c) (fun a f' r' => ∃ m', Shows f' r' m' ∧ Next x s m (.passWrite c) (.reply a) m')
      (fun a f' r' => ∃ m', Shows f' r' m' ∧ Next x s m (.passWrite c) (.reply a) m') (fun f' _ => TurnCut s m (.passWrite c) f') s.flash s.ram := by
  simp only [passWrite, Cmd.throw_bind]
  apply wp_ite
  · intro h
    refine wp_throw ⟨m, hm, ?_⟩
    unfold Next
    dsimp only
    rw [if_neg (by rintro (h1 | h1) <;> simp [h1] at h)]
    exact ⟨rfl, rfl⟩
  · intro hp1
    have hp : c.p1 = 1 ∨ c.p1 = 2 := by
      simp only [Bool.and_eq_true, bne_iff_ne, ne_eq] at hp1
      exact Decidable.or_iff_not_not_and_not.mpr hp1
    apply wp_bind
    apply wp_parse (parsePass_safe _)
    · intro t hs _
      have hs' : (parsePass c.data).run = .ok (.ok t) := hs
      rw [parsePass_run] at hs'
      cases hw : wanted c.data with
      | error e => rw [hw] at hs'; cases hs'
      | ok a =>
        rw [hw] at hs'
        cases hs'
        have hch : Changes s m.live (.passWrite c) (m.live.put c.p1 a) := ⟨hp, a, hw, rfl⟩
        have hpr := pair_put c.p1 a m.live s.ram hm.live
        apply wp_bind
        apply wp_mod
        have hr : (if (c.p1 == 1) = true then { s.ram with slot0 := slotOf a } else { s.ram with slot1 := slotOf a } : Ram)
            = putSlot c.p1 (slotOf a) s.ram := by simp [putSlot]
        rw [hr]
        apply wp_bind
        apply wp_get
        apply wp_bind
        apply wp_wrOr
        · intro f' hf
          cases hf
          refine wp_pure ⟨⟨some _, _⟩, ⟨congrArg some hpr, hpr⟩, ?_⟩
          unfold Next
          dsimp only
          rw [if_pos hp, hw]
          exact ⟨rfl, rfl⟩
        · intro hf; cases hf
        · intro h; exact absurd rfl h
        · intro _; exact Or.inl hm.saved
    · intro sw hsw
      rw [parsePass_run] at hsw
      refine ⟨m, hm, ?_⟩
      unfold Next
      dsimp only
      rw [if_pos hp]
      cases hw : wanted c.data with
      | error e => rw [hw] at hsw; cases hsw; exact ⟨rfl, rfl⟩
      | ok a => rw [hw] at hsw; cases hsw

theorem passInstall_turn {s : St} {m : Mach} (hm : Shows s.flash s.ram m) (reset : Bool) :
    wp cutsOnly (passInstall reset) (fun a f' r' => ∃ m', Shows f' r' m' ∧ Next x s m (.passInstall reset) (.reply a) m')
      (fun _ _ _ => False) (fun f' _ => f'.pass = m.saved.map pairOf) s.flash s.ram := by
  unfold passInstall
  apply wp_bind
  apply wp_rdF
  · intro _
    have hn : s.flash.pass.isNone = m.saved.isNone := by rw [hm.saved]; cases m.saved <;> rfl
    by_cases hc : (reset || s.flash.pass.isNone) = true
    · rw [if_pos hc]
      apply wp_bind
      apply wp_mod
      apply wp_bind
      apply wp_get
      apply wp_bind
      apply wp_wrOr
      · intro f' hf
        cases hf
        refine wp_pure ⟨⟨some .off, .off⟩, ⟨rfl, rfl⟩, rfl, ?_⟩
        rw [hn] at hc
        cases reset with
        | true => rfl
        | false =>
          cases hs : m.saved with
          | none => rfl
          | some l => rw [hs] at hc; cases hc
      · intro hf; cases hf
      · intro h; exact absurd rfl h
      · intro _; exact hm.saved
    · rw [if_neg hc]
      rw [hn] at hc
      cases reset with
      | true => exact absurd rfl hc
      | false =>
        cases hs : m.saved with
        | none => rw [hs] at hc; exact absurd rfl hc
        | some l =>
          have hp : s.flash.pass = some (pairOf l) := by rw [hm.saved, hs]; rfl
          apply wp_bind
          apply wp_rdOr
          · intro t ht
            rw [hp] at ht
            cases ht
            apply wp_bind
            apply wp_mod
            refine wp_pure ⟨⟨some l, l⟩, ⟨hp, rfl⟩, rfl, ?_⟩
            rw [hs]; rfl
          · intro h; rw [hp] at h; cases h
          · intro h; exact absurd rfl h
          · intro _; exact hp
  · intro h; exact absurd rfl h
  · intro _; exact hm.saved

theorem touch_turn (hx : GoodHmac x) {s : St} {m : Mach} (hm : Shows s.flash s.ram m) (long : Bool) :
    wp cutsOnly (handleTouch x long) (fun b f' r' => Shows f' r' m ∧ Types x s (if long then m.live.long else m.live.short) b)
      (fun _ _ _ => False) (fun f' _ => f'.pass = m.saved.map pairOf) s.flash s.ram := by
  unfold handleTouch
  apply wp_bind
  apply wp_get
  have hl0 : s.ram.slot0 = slotOf m.live.short := congrArg Prod.fst hm.live
  have hl1 : s.ram.slot1 = slotOf m.live.long := congrArg Prod.snd hm.live
  have hs : (if long then s.ram.slot1 else s.ram.slot0) = slotOf (if long then m.live.long else m.live.short) := by
    cases long
    · exact hl0
    · exact hl1
  rw [hs]
  have hcr : ∀ (e : Byte) (b : Bytes), (if (e != 0) = true then b ++ [0x0D] else b) = b ++ cr e := by
    intro e b
    unfold cr
    by_cases h : e = 0 <;> simp [h]
  cases ha : (if long then m.live.long else m.live.short) with
  | nothing => exact wp_pure ⟨hm, .nothing⟩
  | password pw e =>
    refine wp_pure ⟨hm, ?_⟩
    rw [hcr]
    exact .password pw e
  | code j n e =>
    show wp cutsOnly (do
      match ← calculateByOffset x (j * recSize) with
      | none => return none
      | some (t, d) =>
        let out := digitsOf d.toNat (beVal t)
        return some (if e != 0 then out ++ [0x0D] else out)) _ _ _ _ _
    apply wp_bind
    have dead : (∀ q, s.flash.oath.bind (·.recs[j]?) = some q → q.name = [] ∨ ¬ Hotp q ∨ num q.chal + 1 = 256 ^ q.chal.length) →
        wp cutsOnly (pure none : M (Option Bytes)) (fun b f' r' => Shows f' r' m ∧ Types x s (.code j n e) b)
          (fun _ _ _ => False) (fun f' _ => f'.pass = m.saved.map pairOf) s.flash s.ram := fun h => wp_pure ⟨hm, .dead j n e h⟩
    unfold calculateByOffset
    simp only [bne_iff_ne, ne_eq, beq_iff_eq]
    rw [if_neg (by simp)]
    apply wp_bind
    apply wp_rdF
    · intro _
      cases ho : s.flash.oath with
      | none => exact wp_pure (dead (by rw [ho]; nofun))
      | some o =>
        simp only [Option.map_some]
        apply wp_ite
        · intro h
          refine wp_pure (dead ?_)
          intro q hq
          rw [ho] at hq
          have := (List.getElem?_eq_some_iff.mp hq).1
          have : j * recSize < o.recs.length * recSize := Nat.mul_lt_mul_of_pos_right this (by decide)
          omega
        · intro hlt
          have hd : j * recSize / recSize = j := Nat.mul_div_cancel _ (by decide)
          have hj : j < o.recs.length := by
            apply Nat.lt_of_not_le
            intro h
            exact hlt (Nat.mul_le_mul_right _ h)
          rw [hd]
          apply wp_bind
          apply wp_rdF
          · intro _
            have hq : (s.flash.oath.bind fun x => x.recs[j]?) = some o.recs[j] := by simp [ho, hj]
            rw [hq]
            generalize hqq : o.recs[j] = q
            rw [hqq] at hq
            have hq' : o.recs[j]? = some q := by rw [← hqq]; simp [hj]
            have dead : (q.name = [] ∨ ¬ Hotp q ∨ num q.chal + 1 = 256 ^ q.chal.length) →
                wp cutsOnly (pure none : M (Option Bytes)) (fun b f' r' => Shows f' r' m ∧ Types x s (.code j n e) b)
                  (fun _ _ _ => False) (fun f' _ => f'.pass = m.saved.map pairOf) s.flash s.ram := by
              intro h
              refine dead ?_
              intro t ht
              rw [hq] at ht
              cases ht
              exact h
            simp only
            apply wp_ite
            · intro h; exact wp_pure (dead (Or.inl (by simpa using h)))
            · intro hne
              have hne : q.name ≠ [] := by simpa using hne
              apply wp_ite
              · intro h
                refine wp_pure (dead (Or.inr (Or.inl ?_)))
                intro hh
                unfold Hotp at hh
                simp_all
              · intro _
                apply wp_ite
                · intro hh
                  cases hc : increaseCounter q.chal with
                  | none => exact wp_pure (dead (Or.inr (Or.inr (increaseCounter_none.mp hc))))
                  | some c =>
                    have ht : truncate (digest x q c) = .ok (be4 (dynTrunc (mac x q c))) := truncate_eq (hx _ _ _).1
                    apply wp_bind
                    apply wp_updChal ho hq'
                    · intro _
                      apply wp_bind
                      apply wp_mem ht
                      apply wp_pure
                      refine wp_pure ⟨⟨hm.saved, hm.live⟩, ?_⟩
                      have hcr' : ∀ b : Bytes, (if ¬ e = 0 then b ++ [0x0D] else b) = b ++ cr e := by
                        intro b
                        unfold cr
                        by_cases h : e = 0 <;> simp [h]
                      rw [hcr', digitsOf_eq, beVal_eq, be4_dynTrunc]
                      obtain ⟨h1, h2⟩ := increaseCounter_some hc
                      exact .code j n e q c hq hne hh h1 h2
                    · intro h; exact absurd rfl h
                    · intro _; exact hm.saved
                · intro hh
                  refine wp_pure (dead (Or.inr (Or.inl ?_)))
                  unfold Hotp
                  simpa using hh
          · intro h; exact absurd rfl h
          · intro _; exact hm.saved
    · intro h; exact absurd rfl h
    · intro _; exact hm.saved

end

/-- Running a command. -/
theorem exec_turn {c : M Reply} {s : St} {m : Mach} {op : Op} {env : Env} (he : env.all cutsOnly)
    (h : wp cutsOnly c (fun a f' r' => ∃ m', Shows f' r' m' ∧ Next x s m op (.reply a) m')
      (fun a f' r' => ∃ m', Shows f' r' m' ∧ Next x s m op (.reply a) m') (fun f' _ => TurnCut s m op f') s.flash s.ram) :
    ∃ m', (((exec c s env).2 ≠ .cut ∧ Next x s m op (exec c s env).2 m') ∨ ((exec c s env).2 = .cut ∧ Lost s m op m')) ∧
      Shows (exec c s env).1.flash (exec c s env).1.ram m' := by
  refine exec_eff (P := fun o f' r' => match o with
      | .done a => ∃ m', Shows f' r' m' ∧ Next x s m op (.reply a) m'
      | .cut => TurnCut s m op f') (T := fun o t => ∃ m', ((o ≠ .cut ∧ Next x s m op o m') ∨ (o = .cut ∧ Lost s m op m')) ∧ Shows t.flash t.ram m')
    h he ?_ ?_
  · rintro a f' r' ⟨m', h1, h2⟩
    exact ⟨m', Or.inl ⟨nofun, h2⟩, h1⟩
  · rintro f' r' (h | ⟨l, h1, h2⟩)
    · exact ⟨⟨m.saved, .off⟩, Or.inr ⟨rfl, rfl, Or.inl rfl⟩, ⟨h, rfl⟩⟩
    · exact ⟨⟨some l, .off⟩, Or.inr ⟨rfl, rfl, Or.inr ⟨l, h1, rfl⟩⟩, ⟨h2, rfl⟩⟩

/-- A command that leaves the slots alone. -/
theorem exec_stay {c : M Reply} {s : St} {m : Mach} {op : Op} {env : Env} (hm : Shows s.flash s.ram m) (h1 : Moves SamePass c) (h2 : Keeps SameSlots c)
    (h : ∀ a, Next x s m op (.reply a) m) :
    ∃ m', (((exec c s env).2 ≠ .cut ∧ Next x s m op (exec c s env).2 m') ∨ ((exec c s env).2 = .cut ∧ Lost s m op m')) ∧
      Shows (exec c s env).1.flash (exec c s env).1.ram m' := by
  have h1 := h1 ⟨s.flash, s.ram, env⟩
  have h2 := h2 ⟨s.flash, s.ram, env⟩
  unfold exec runCmd
  cases hc : c.run ⟨s.flash, s.ram, env⟩ with
  | mk o w =>
    rw [hc] at h1 h2
    have hp : w.flash.pass = m.saved.map pairOf := Eq.trans h1 hm.saved
    have hw : Shows w.flash w.ram m := ⟨hp, by rw [h2.1, h2.2]; exact hm.live⟩
    cases o with
    | none => exact ⟨⟨m.saved, .off⟩, Or.inr ⟨rfl, rfl, Or.inl rfl⟩, ⟨hp, rfl⟩⟩
    | some y => cases y <;> exact ⟨m, Or.inl ⟨nofun, h _⟩, hw⟩

/-- Every operation follows the machine. -/
theorem touch_next (hx : GoodHmac x) {s : St} {m : Mach} (hm : Shows s.flash s.ram m) (op : Op) {env : Env} (he : env.all cutsOnly) :
    ∃ m', (((step x s op env).2 ≠ .cut ∧ Next x s m op (step x s op env).2 m') ∨ ((step x s op env).2 = .cut ∧ Lost s m op m')) ∧
      Shows (step x s op env).1.flash (step x s op env).1.ram m' := by
  cases op with
  | apdu i =>
    show ∃ m', (((exec (process x i) s env).2 ≠ .cut ∧ Next x s m (.apdu i) (exec (process x i) s env).2 m') ∨ ((exec (process x i) s env).2 = .cut ∧ Lost s m (.apdu i) m')) ∧
      Shows (exec (process x i) s env).1.flash (exec (process x i) s env).1.ram m'
    by_cases h2 : i.c.ins = 0x02
    · refine exec_turn he ?_
      unfold process
      apply wp_bind
      apply wp_get
      cases hv : s.ram.validated with
      | false =>
        simp [h2]
        refine wp_throw ⟨m, hm, Or.inr ⟨?_, rfl⟩⟩
        rintro l ⟨h, _⟩
        rw [hv] at h; cases h
      | true =>
        simp [h2]
        exact wp_mono (delete_turn hm h2 hv) (fun _ _ _ ⟨m', h1, h2⟩ => ⟨m', h1, h2⟩) (fun _ _ _ ⟨m', h1, h2⟩ => ⟨m', h1, h2⟩) (fun _ _ h => h)
    · by_cases h5 : i.c.ins = 0x55
      · refine exec_turn he ?_
        unfold process
        apply wp_bind
        apply wp_get
        cases hv : s.ram.validated with
        | false =>
          simp [h5]
          refine wp_throw ⟨m, hm, Or.inr ⟨?_, rfl⟩⟩
          rintro l ⟨h, _⟩
          rw [hv] at h; cases h
        | true =>
          simp [h5]
          exact wp_mono (setDefault_turn hm h5 hv) (fun _ _ _ ⟨m', h1, h2⟩ => ⟨m', h1, h2⟩) (fun _ _ _ ⟨m', h1, h2⟩ => ⟨m', h1, h2⟩) (fun _ _ h => h)
      · refine exec_stay hm (process_tp h2 h5) (process_ts h2 h5) fun a => Or.inr ⟨?_, rfl⟩
        rintro l ⟨_, ⟨h, _⟩ | ⟨h, _⟩⟩
        · exact h2 h
        · exact h5 h
  | touch long =>
    have h := touch_turn hx hm long env he
    simp only [step, execTouch]
    revert h
    rcases (handleTouch x long).run ⟨s.flash, s.ram, env⟩ with ⟨a, w⟩
    rcases a with _ | (e | b)
    · intro h
      exact ⟨⟨m.saved, .off⟩, Or.inr ⟨rfl, rfl, Or.inl rfl⟩, ⟨h, rfl⟩⟩
    · rintro ⟨h, _⟩; exact h.elim
    · rintro ⟨⟨h1, h2⟩, _⟩
      exact ⟨m, Or.inl ⟨nofun, rfl, b, rfl, h2⟩, h1⟩
  | passRead =>
    refine exec_turn he ?_
    unfold passRead
    apply wp_bind
    apply wp_get
    refine wp_pure ⟨m, hm, rfl, ?_⟩
    have hl0 : s.ram.slot0 = slotOf m.live.short := congrArg Prod.fst hm.live
    have hl1 : s.ram.slot1 = slotOf m.live.long := congrArg Prod.snd hm.live
    rw [hl0, hl1, dump_of, dump_of]
  | passWrite c => exact exec_turn he (passWrite_turn hm c)
  | install reset rnd => exact exec_stay hm install_tp install_ts fun _ => Or.inr ⟨fun _ h => h, rfl⟩
  | passInstall reset =>
    exact exec_turn he (wp_mono (passInstall_turn hm reset) (fun _ _ _ h => h) (fun _ _ _ h => h.elim) (fun _ _ h => Or.inl h))
  | powerOff => exact ⟨m, Or.inl ⟨nofun, Or.inr ⟨fun _ h => h, rfl⟩⟩, ⟨hm.saved, hm.live⟩⟩
  | boot => exact ⟨⟨m.saved, .off⟩, Or.inl ⟨nofun, rfl⟩, ⟨hm.saved, rfl⟩⟩

end Verif.Oath
