import Verif.Lemmas.CtapStep
/-
Unless an attempt is charged, nothing that can be observed depends on which PIN is stored.
-/
namespace Verif.Ctap
open Cmd

/-- The command does the same with the changed flash, or the retry counter has changed. -/
def BlindAt {α : Type} (T : Flash → Flash) (m : M α) (w : World Flash Ram) : Prop :=
  m.run (onFlash T w) = ((m.run w).1, onFlash T (m.run w).2) ∨ (m.run w).2.flash.tries ≠ w.flash.tries

variable {α β : Type} {T : Flash → Flash}

theorem Sim.blind {m : M α} (h : Sim T m) (w : World Flash Ram) : BlindAt T m w := Or.inl (h w)

theorem BlindAt.bind {m : M α} {g : α → M β} {w : World Flash Ram} (hs : Sim T m)
    (h : ∀ a w', m.run w = (some (.ok a), w') → w'.flash.tries = w.flash.tries ∧ BlindAt T (g a) w') :
    BlindAt T (m >>= g) w := by
  unfold BlindAt
  rw [run_bind, run_bind, hs w]
  cases hm : m.run w with
  | mk o w' =>
    cases o with
    | none => exact Or.inl rfl
    | some y =>
      cases y with
      | error _ => exact Or.inl rfl
      | ok a =>
        obtain ⟨h1, h2⟩ := h a w' hm
        cases h2 with
        | inl h2 => exact Or.inl h2
        | inr h2 => exact Or.inr (by rw [← h1]; exact h2)

/-- A weakest precondition, used for one run. -/
theorem run_ok {m : M α} {w w' : World Flash Ram} {a : α} {P : α → Flash → Ram → Prop}
    (h : wp (fun _ => True) m P (fun _ _ _ => True) (fun _ _ => True) w.flash w.ram)
    (hr : m.run w = (some (.ok a), w')) : P a w'.flash w'.ram := by
  have h1 := h w.env (fun _ => trivial)
  rw [show (⟨w.flash, w.ram, w.env⟩ : World Flash Ram) = w from rfl, hr] at h1
  exact h1.1

theorem Charged.tries {f g : Flash} (h : Charged f g) : g.tries + 1 = f.tries := by
  obtain ⟨c, k, h1, h2, h3, rfl⟩ := h
  unfold Flash.tries
  simp only [h1, h2]
  have : k.toNat ≠ 0 := fun h => h3 (UInt8.toNat_inj.mp h)
  rw [UInt8.toNat_sub_of_le _ _ (by rw [UInt8.le_iff_toNat_le]; show 1 ≤ _; omega)]
  show k.toNat - 1 + 1 = _
  omega

/-- What is left of the comparison after the charge. -/
def cmpRest (x : Ext) (q : CpReq) (z : Bytes) (n : Byte) (regen : Bool) : M Unit := do
  let cand ← decryptOr x z (q.pinHashEnc.take (hashSize q.proto)) q.proto
  if ← verifyPinHash cand then
    Cmd.mod fun r => { r with consec := 3 }
  else
    if regen then Cmd.mod fun r => { r with ka := r.ka + 1 } else pure ()
    failIf (n == 0) Code.pinBlocked
    Cmd.mod fun r => { r with consec := r.consec - 1 }
    let r ← Cmd.get
    fail (if r.consec == 0 then Code.pinAuthBlocked else Code.pinInvalid)

/-- Flash is left alone. -/
def SameFlash : FRel := fun f _ f' _ => f' = f
instance : Pre SameFlash := ⟨fun _ _ => rfl, fun _ _ _ _ _ _ a b => b.trans a⟩

variable (x : Ext) (i : In) (q : CpReq) {p : Bytes}

theorem cmpRest_flash (z : Bytes) (n : Byte) (regen : Bool) : Rel SameFlash (cmpRest x q z n regen) := by
  unfold cmpRest decryptOr verifyPinHash
  rels (first | (intro _ _; exact rfl))

theorem compare_blind {w : World Flash Ram} {z : Bytes} {k : Byte} {regen : Bool} {g : Unit → M β}
    (hz : decapsulate x w.ram.ka q.key q.proto = some z) (hk : rdCert (·.pinCtr) w.flash = some k) (h0 : k ≠ 0)
    (hn : ¬ Match x w.ram.ka q w.flash) :
    BlindAt (Flash.withPin p) (pinCompare x q z (k - 1) regen >>= g) w := by
  have hsim : Sim (Flash.withPin p) (setPinRetries (k - 1)) := by
    unfold setPinRetries
    sims (spin)
  have hun : pinCompare x q z (k - 1) regen = setPinRetries (k - 1) >>= fun _ => cmpRest x q z (k - 1) regen := rfl
  have hno : ∀ a w', (pinCompare x q z (k - 1) regen).run w ≠ (some (.ok a), w') := by
    intro a w' hr
    refine run_ok (P := fun _ _ _ => False) ?_ hr
    apply wp_pinCompare x q hz hk h0
    · intro _ _ hm
      exact hn hm
    all_goals
      intros
      trivial
  have hch : ∀ w', (setPinRetries (k - 1)).run w = (some (.ok ()), w') → Charged w.flash w'.flash := by
    intro w' hr
    refine run_ok (P := fun _ f _ => Charged w.flash f) ?_ hr
    unfold setPinRetries
    apply wp_wrOr
    · intro g hg
      exact charged_of hk h0 hg
    all_goals
      intros
      trivial
  unfold BlindAt
  rw [run_bind, run_bind]
  have hrun : ∀ w, (pinCompare x q z (k - 1) regen).run w = match (setPinRetries (k - 1)).run w with
      | (some (.ok _), w') => (cmpRest x q z (k - 1) regen).run w'
      | (some (.error e), w') => (some (.error e), w')
      | (none, w') => (none, w') := by
    intro w
    rw [hun, run_bind]
    cases (setPinRetries (k - 1)).run w with
    | mk o w' =>
      cases o with
      | none => rfl
      | some y => cases y <;> rfl
  rw [hrun, hrun, hsim w]
  rw [hrun] at hno
  cases hs : (setPinRetries (k - 1)).run w with
  | mk o w' =>
    rw [hs] at hno
    cases o with
    | none => exact Or.inl rfl
    | some y =>
      cases y with
      | error _ => exact Or.inl rfl
      | ok a =>
        right
        have hc := hch w' hs
        have hf := cmpRest_flash x q z (k - 1) regen (fun _ => True) w'.flash w'.ram w'.env (fun _ => trivial)
        rw [show (⟨w'.flash, w'.ram, w'.env⟩ : World Flash Ram) = w' from rfl] at hf
        simp only at hno ⊢
        cases hr : (cmpRest x q z (k - 1) regen).run w' with
        | mk o w'' =>
          rw [hr] at hno hf
          have ht : w''.flash.tries ≠ w.flash.tries := by
            have : w''.flash = w'.flash := by
              cases o with
              | none => exact hf
              | some y =>
                cases y with
                | error _ => exact hf.1
                | ok _ => exact hf.1
            rw [this, ← hc.tries]
            omega
          cases o with
          | none => exact ht
          | some y =>
            cases y with
            | error _ => exact ht
            | ok a => exact absurd rfl (hno a w'')

theorem s_pinGate (hp : p ≠ []) : Sim (Flash.withPin p) pinGate := by
  unfold pinGate pinRetries
  sims (first | exact s_hasPin hp | spin)

theorem pinGate_ok {w w' : World Flash Ram} {n : Byte} (h : pinGate.run w = (some (.ok n), w')) :
    w'.flash = w.flash ∧ w'.ram = w.ram ∧ w.ram.consec ≠ 0 ∧
      ∃ k, rdCert (·.pinCtr) w.flash = some k ∧ k ≠ 0 ∧ n = k - 1 := by
  refine run_ok (P := fun n f r => f = w.flash ∧ r = w.ram ∧ w.ram.consec ≠ 0 ∧
      ∃ k, rdCert (·.pinCtr) w.flash = some k ∧ k ≠ 0 ∧ n = k - 1) ?_ h
  apply wp_pinGate
  · intro k hk h0 hc
    exact ⟨rfl, rfl, hc, k, hk, h0, rfl⟩
  all_goals
    intros
    trivial

theorem shared_ok {w w' : World Flash Ram} {z : Bytes} (h : (shared x q).run w = (some (.ok z), w')) :
    w' = w ∧ decapsulate x w.ram.ka q.key q.proto = some z := by
  unfold shared at h
  rw [run_bind] at h
  have hg : (Cmd.get : M Ram).run w = (some (.ok w.ram), w) := rfl
  rw [hg] at h
  simp only at h
  cases hd : decapsulate x w.ram.ka q.key q.proto with
  | none => rw [hd] at h; cases h
  | some z' => rw [hd] at h; cases h; exact ⟨rfl, rfl⟩

theorem s_shared : Sim (Flash.withPin p) (shared x q) := by
  unfold shared
  sims (spin)

/-- No PIN is compared in this state. -/
def Locked (f : Flash) (r : Ram) : Prop := f.tries = 0 ∨ r.consec = 0

theorem not_locked {f : Flash} {r : Ram} {k : Byte} (hk : rdCert (·.pinCtr) f = some k) (h0 : k ≠ 0)
    (hc : r.consec ≠ 0) : ¬ Locked f r := by
  rintro (h | h)
  · apply h0
    unfold rdCert at hk
    unfold Flash.tries at h
    cases hf : f.cert with
    | none => rw [hf] at hk; cases hk
    | some c =>
      rw [hf] at hk h
      simp only [Option.bind_some] at hk
      simp only [hk] at h
      exact UInt8.toNat_inj.mp h
  · exact hc h

theorem getToken_blind (hp : p ≠ []) {w : World Flash Ram}
    (hn : Locked w.flash w.ram ∨ ¬ Match x w.ram.ka q w.flash) :
    BlindAt (Flash.withPin p) (cpGetToken x i q) w := by
  unfold cpGetToken
  apply BlindAt.bind (s_pinGate hp)
  intro n w1 h1
  obtain ⟨hf, hr, hc, k, hk, h0, rfl⟩ := pinGate_ok h1
  replace hn := hn.resolve_left (not_locked hk h0 hc)
  refine ⟨by rw [hf], ?_⟩
  apply BlindAt.bind (s_shared x q)
  intro z w2 h2
  obtain ⟨rfl, hz⟩ := shared_ok x q h2
  refine ⟨rfl, ?_⟩
  rw [← hf] at hk hn
  rw [← hr] at hn
  exact compare_blind x q hz hk h0 hn

theorem changePin_blind (hp : p ≠ []) {w : World Flash Ram}
    (hn : Locked w.flash w.ram ∨ ¬ Match x w.ram.ka q w.flash) :
    BlindAt (Flash.withPin p) (cpChangePin x q) w := by
  unfold cpChangePin
  apply BlindAt.bind (s_pinGate hp)
  intro n w1 h1
  obtain ⟨hf, hr, hc, k, hk, h0, rfl⟩ := pinGate_ok h1
  replace hn := hn.resolve_left (not_locked hk h0 hc)
  refine ⟨by rw [hf], ?_⟩
  apply BlindAt.bind (s_shared x q)
  intro z w2 h2
  obtain ⟨rfl, hz⟩ := shared_ok x q h2
  refine ⟨rfl, ?_⟩
  apply BlindAt.bind (Sim.failIf _ _)
  intro _ w3 h3
  have hw : w3 = w2 := by
    unfold failIf at h3
    split at h3
    · cases h3
    · cases h3; rfl
  subst hw
  refine ⟨rfl, ?_⟩
  rw [← hf] at hk hn
  rw [← hr] at hn
  exact compare_blind x q hz hk h0 hn

theorem clientPin_blind (hp : p ≠ []) {w : World Flash Ram} {h : Bytes}
    (hpin : rdCert (·.pin) w.flash = some h) (hne : h ≠ [])
    (hn : (q.sub = 4 ∨ q.sub = 5 ∨ q.sub = 9) → Locked w.flash w.ram ∨ ¬ Match x w.ram.ka q w.flash) :
    BlindAt (Flash.withPin p) (clientPin x i (.ok q)) w := by
  unfold clientPin
  simp only
  split
  · exact Sim.blind (by sims (spin)) w
  split
  · exact Sim.blind (by sims (spin)) w
  split
  · unfold cpSetPin
    apply BlindAt.bind (s_hasPin hp)
    intro b w' hb
    have : b = true ∧ w'.flash = w.flash := by
      refine run_ok (P := fun b f _ => b = true ∧ f = w.flash) ?_ hb
      apply wp_hasPin
      · intro b hb hb'
        have hv : ((rdCert (·.pin) w.flash).map fun q => !q.isEmpty).getD true = true := by
          rw [hpin]
          simp [hne]
        rw [hv] at hb'
        refine ⟨?_, rfl⟩
        cases hb' trivial <;> assumption
      · intro _
        trivial
    obtain ⟨rfl, hf⟩ := this
    exact ⟨by rw [hf], Or.inl rfl⟩
  split
  · rename_i h4
    exact changePin_blind x q hp (hn (Or.inl (eq_of_beq h4)))
  split
  · rename_i h5
    have h5 : q.sub = 5 ∨ q.sub = 9 := by simpa using h5
    exact getToken_blind x i q hp (hn (Or.inr h5))
  · exact Sim.blind (Sim.pure _) w

theorem handle_blind (hp : p ≠ []) (q : Req) {w : World Flash Ram} {h : Bytes}
    (hpin : rdCert (·.pin) w.flash = some h) (hne : h ≠ [])
    (hn : ∀ c, q = .cp (.ok c) → (c.sub = 4 ∨ c.sub = 5 ∨ c.sub = 9) →
      Locked w.flash w.ram ∨ ¬ Match x w.ram.ka c w.flash) :
    BlindAt (Flash.withPin p) (handle x i q) w := by
  cases q with
  | mc q => exact (s_makeCredential x i hp q).blind w
  | ga q => exact (s_getAssertion x i hp q).blind w
  | gna => exact (s_getNextAssertion x i).blind w
  | info =>
    apply Sim.blind
    unfold handle
    sims (first | exact s_hasPin hp | spin)
  | cp q =>
    cases q with
    | error c => exact Sim.blind (Sim.fail _) w
    | ok c => exact clientPin_blind x i c hp hpin hne (hn c rfl)
  | reset =>
    apply Sim.blind
    unfold handle resetData
    sims (first | exact s_install _ _ | spin)
  | cm q => exact (s_credMgmt x i q).blind w
  | sel =>
    apply Sim.blind
    unfold handle
    sims (first | exact s_wait _ _ | spin)
  | lb q => exact (s_largeBlobs x i hp q).blind w
  | other c => exact Sim.blind (Sim.fail _) w

theorem process_blind (hp : p ≠ []) (q : Req) {w : World Flash Ram} {h : Bytes}
    (hpin : rdCert (·.pin) w.flash = some h) (hne : h ≠ [])
    (hn : ∀ c, q = .cp (.ok c) → (c.sub = 4 ∨ c.sub = 5 ∨ c.sub = 9) →
      Locked w.flash w.ram ∨ ¬ Match x w.ram.ka c w.flash) :
    BlindAt (Flash.withPin p) (process x i q) w := by
  unfold process
  apply BlindAt.bind Sim.mod
  intro _ w1 h1
  have h1' : w1 = { w with ram := aged i w.ram } := by
    cases h1
    rfl
  subst h1'
  refine ⟨rfl, ?_⟩
  have hb := handle_blind x i hp q (w := { w with ram := aged i w.ram }) hpin hne hn
  unfold BlindAt at hb ⊢
  rw [run_bind, run_bind, Cmd.lift_run, Cmd.lift_run]
  cases hr : (handle x i q).run { w with ram := aged i w.ram } with
  | mk o w2 =>
    rw [hr] at hb
    cases hb with
    | inl hb =>
      rw [hb]
      left
      cases o with
      | none => rfl
      | some y =>
        cases y with
        | ok a => rfl
        | error e => cases e <;> rfl
    | inr hb =>
      right
      cases o with
      | none => exact hb
      | some y =>
        cases y with
        | ok a => exact hb
        | error e =>
          cases e with
          | code c => exact hb
          | ub u => exact hb

theorem exec_blind {m : M α} {g : α → Out} {s : St} {env : Env}
    (h : BlindAt (Flash.withPin p) m ⟨s.flash, s.ram, env⟩)
    (ht : (exec m g s env).1.flash.tries = s.flash.tries) :
    exec m g (s.withPin p) env = ((exec m g s env).1.withPin p, (exec m g s env).2) := by
  unfold exec at ht ⊢
  have e : (⟨(s.withPin p).flash, (s.withPin p).ram, env⟩ : World Flash Ram)
      = onFlash (Flash.withPin p) ⟨s.flash, s.ram, env⟩ := rfl
  rw [e]
  unfold BlindAt at h
  cases hr : m.run ⟨s.flash, s.ram, env⟩ with
  | mk o w =>
    rw [hr] at h ht
    have h' : m.run (onFlash (Flash.withPin p) ⟨s.flash, s.ram, env⟩) = (o, onFlash (Flash.withPin p) w) := by
      cases h with
      | inl h => exact h
      | inr h =>
        exfalso
        apply h
        cases o with
        | none => exact ht
        | some y =>
          cases y with
          | ok a => exact ht
          | error e => cases e <;> exact ht
    rw [h']
    cases o with
    | none => rfl
    | some y =>
      cases y with
      | ok a => rfl
      | error e => cases e <;> rfl

section
variable {A : Fault → Prop} {f : Flash} {r : Ram}

theorem locked_getToken (hl : Locked f r) :
    wp A (cpGetToken x i q) (fun _ => Quiet i.tick f r) (fun _ => Quiet i.tick f r) (Quiet i.tick f r) f r := by
  unfold cpGetToken
  apply wp_bind
  apply wp_pinGate
  · intro k hk h0 hc
    exact absurd hl (not_locked hk h0 hc)
  · intro _
    exact Pre.refl f r
  · exact Pre.refl f r

theorem locked_changePin (hl : Locked f r) :
    wp A (cpChangePin x q) (fun _ => Quiet i.tick f r) (fun _ => Quiet i.tick f r) (Quiet i.tick f r) f r := by
  unfold cpChangePin
  apply wp_bind
  apply wp_pinGate
  · intro k hk h0 hc
    exact absurd hl (not_locked hk h0 hc)
  · intro _
    exact Pre.refl f r
  · exact Pre.refl f r

/-- In a locked state with a PIN, no command but a reset touches PIN, counters or token. -/
theorem locked_process (q : Req) (hl : Locked f r) {h : Bytes} (hpin : rdCert (·.pin) f = some h) (hne : h ≠ [])
    (hq : q ≠ .reset) :
    wp A (process x i q) (fun _ => Quiet i.tick f (aged i r)) (fun _ => Quiet i.tick f (aged i r))
      (Quiet i.tick f (aged i r)) f r := by
  have hl' : Locked f (aged i r) := hl
  unfold process
  apply wp_bind
  apply wp_mod
  apply wp_bind
  apply wp_catch
  have hh : wp A (handle x i q) (fun _ => Quiet i.tick f (aged i r)) (fun _ => Quiet i.tick f (aged i r))
      (Quiet i.tick f (aged i r)) f (aged i r) := by
    cases q with
    | mc q => exact q_makeCredential x i q A _ _
    | ga q => exact q_getAssertion x i q A _ _
    | gna => exact q_getNextAssertion x i _ A _ _
    | info =>
      refine (?_ : Rel (Quiet i.tick) _) A _ _
      unfold handle
      rels (first | exact q_hasPin _ | quiet)
    | cp q =>
      cases q with
      | error c => exact wp_fail (Pre.refl _ _)
      | ok q =>
        unfold handle clientPin
        simp only
        apply wp_ite
        · intro _
          refine (?_ : Rel (Quiet i.tick) _) A _ _
          rels (quiet)
        intro _
        apply wp_ite
        · intro _
          refine (?_ : Rel (Quiet i.tick) _) A _ _
          rels (quiet)
        intro _
        apply wp_ite
        · intro _
          apply wp_mono (wp_setPin_set x q hpin hne)
          · intro _ _ _ h
            exact h.elim
          · rintro _ _ _ ⟨h1, h2, _⟩
            rw [h1, h2]
            exact Pre.refl _ _
          · rintro _ _ ⟨h1, h2⟩
            rw [h1, h2]
            exact Pre.refl _ _
        intro _
        apply wp_ite
        · intro _
          exact locked_changePin x i q hl'
        intro _
        apply wp_ite
        · intro _
          exact locked_getToken x i q hl'
        intro _
        exact wp_pure (Pre.refl _ _)
    | reset => exact absurd rfl hq
    | cm q => exact q_credMgmt x i q A _ _
    | sel =>
      refine (?_ : Rel (Quiet i.tick) _) A _ _
      unfold handle
      rels (first | exact q_wait _ _ _ | quiet)
    | lb q => exact q_largeBlobs x i q A _ _
    | other c => exact wp_fail (Pre.refl _ _)
  apply wp_mono hh
  · intro a f' r' h
    apply wp_bind
    apply wp_mod
    exact wp_pure (Pre.trans _ _ _ _ _ _ h Quiet.ram)
  · intro e f' r' h
    cases e with
    | code c =>
      apply wp_bind
      apply wp_mod
      exact wp_fail (Pre.trans _ _ _ _ _ _ h Quiet.ram)
    | ub u => exact wp_throw h
  · exact fun _ _ h => h
end

end Verif.Ctap
