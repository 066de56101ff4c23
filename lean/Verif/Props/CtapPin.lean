import Verif.Lemmas.CtapBlind
/-
C51, C52: PIN attempts and lockouts of the FIDO applet.
-/
namespace Verif.Ctap
open Cmd

variable {x : Ext}

/-! ### The stored PIN and what is presented -/

theorem pinHash_some {f : Flash} {h : Bytes} (hp : f.pinHash = some h) : rdCert (·.pin) f = some h ∧ h ≠ [] := by
  unfold Flash.pinHash at hp
  unfold rdCert
  cases hc : f.cert with
  | none => rw [hc] at hp; cases hp
  | some c =>
    rw [hc] at hp
    simp only at hp ⊢
    cases hq : c.pin with
    | none => rw [hq] at hp; cases hp
    | some l =>
      rw [hq] at hp
      cases l with
      | nil => cases hp
      | cons a l => cases hp; exact ⟨hq, by simp⟩

theorem pinHash_of {f : Flash} {h : Bytes} (hp : rdCert (·.pin) f = some h) (hn : h ≠ []) : f.pinHash = some h := by
  unfold rdCert at hp
  unfold Flash.pinHash
  cases hc : f.cert with
  | none => rw [hc] at hp; cases hp
  | some c =>
    rw [hc] at hp
    simp only [Option.bind_some] at hp ⊢
    rw [hp]
    cases h with
    | nil => exact absurd rfl hn
    | cons a l => rfl

theorem Match.right {s : St} {i : In} {q : CpReq} (h : Match x s.ram.ka q s.flash)
    (hq : q.sub = 4 ∨ q.sub = 5 ∨ q.sub = 9) : Right x s (.cbor i (.cp (.ok q))) := by
  obtain ⟨p, h1, h2, h3⟩ := h
  refine ⟨p, pinHash_of h1 (fun h => by rw [h] at h2; exact absurd h2 (by decide)), ?_⟩
  show (if _ then _ else _) = _
  rw [if_pos hq]
  exact h3

theorem tries_of_pinCtr {f f' : Flash} (h : rdCert (·.pinCtr) f' = rdCert (·.pinCtr) f) : f'.tries = f.tries := by
  have : ∀ g : Flash, g.tries = ((rdCert (·.pinCtr) g).map (·.toNat)).getD 0 := by
    intro g
    unfold Flash.tries rdCert
    cases g.cert with
    | none => rfl
    | some c => cases hc : c.pinCtr <;> simp [hc]
  rw [this, this, h]

theorem pinHash_of_pin {f f' : Flash} (h : rdCert (·.pin) f' = rdCert (·.pin) f) : f'.pinHash = f.pinHash := by
  have : ∀ g : Flash, g.pinHash = (rdCert (·.pin) g).bind fun l => if l.isEmpty then none else some l := by
    intro g
    unfold Flash.pinHash rdCert
    cases g.cert with
    | none => rfl
    | some c =>
      cases hc : c.pin with
      | none => simp [hc]
      | some l => cases l <;> simp [hc]
  rw [this, this, h]

theorem upd_tries {g : Cert → Cert} {f f' : Flash} (h : updCert g f = some f') (n : Byte)
    (hg : ∀ c, (g c).pinCtr = some n) : f'.tries = n.toNat := by
  unfold updCert at h
  cases hc : f.cert with
  | none => rw [hc] at h; cases h
  | some c =>
    rw [hc] at h
    cases h
    unfold Flash.tries
    simp only [hg]

theorem upd_pinCtr {g : Cert → Cert} {f f' : Flash} (h : updCert g f = some f')
    (hg : ∀ c, (g c).pinCtr = c.pinCtr) : f'.tries = f.tries := by
  apply tries_of_pinCtr
  unfold updCert at h
  cases hc : f.cert with
  | none => rw [hc] at h; cases h
  | some c =>
    rw [hc] at h
    cases h
    unfold rdCert
    rw [hc]
    exact hg c

theorem otherOut_tries {s : St} {op : Op} {p : St × Out} (h : OtherOut x s op p) : p.1.flash.tries = s.flash.tries := by
  cases h with
  | boot h _ => exact tries_of_pinCtr h.pinCtr
  | reset h _ => exact tries_of_pinCtr h.pinCtr
  | u2f h => exact tries_of_pinCtr h.pinCtr
  | u2fCut h => exact tries_of_pinCtr h.pinCtr
  | admin _ _ _ h _ => exact tries_of_pinCtr (h 0 s.ram).pinCtr

/-- What an operation can do to the retry counter when a PIN is set and not presented. -/
theorem wrong_tries (hx : x.Sized) {s : St} {op : Op} {env : Env} {h : Bytes} (hp : s.flash.pinHash = some h)
    (hr : ¬ Right x s op) :
    (step x s op env).1.flash.tries = s.flash.tries ∨
      (op.asks = true ∧ (step x s op env).1.flash.tries + 1 = s.flash.tries) := by
  by_cases hc : ∃ i q, op = .cbor i q
  · obtain ⟨i, q, rfl⟩ := hc
    obtain ⟨o, r', he, _⟩ := step_cbor (A := fun _ => True) x i hx s q (env := env) (fun _ => trivial)
    have asks : ∀ c : CpReq, (c.sub = 4 ∨ c.sub = 5 ∨ c.sub = 9) → (Op.cbor i (.cp (.ok c))).asks = true := by
      intro c hc
      show (c.sub == 4 || c.sub == 5 || c.sub == 9) = true
      rcases hc with h | h | h <;> rw [h] <;> rfl
    revert he
    generalize (step x s (.cbor i q) env).1.flash = f'
    intro he
    cases he with
    | quiet h => exact Or.inl (tries_of_pinCtr h.pinCtr)
    | token hq hm => exact absurd (Match.right (s := s) hm (Or.inr hq)) hr
    | changed n hq hm => exact absurd (Match.right (s := s) hm (Or.inl hq)) hr
    | failed hq hf _ =>
      cases hf with
      | early => exact Or.inl rfl
      | unread _ _ hch => exact Or.inr ⟨asks _ hq, hch.tries⟩
      | wrong _ _ _ _ hw => exact Or.inr ⟨asks _ hq, hw.charged.tries⟩
      | right _ _ _ _ hm => exact absurd (Match.right (s := s) hm hq) hr
    | cut hq hf =>
      cases hf with
      | early => exact Or.inl rfl
      | charged _ hch => exact Or.inr ⟨asks _ hq, hch.tries⟩
      | right _ _ _ hm => exact absurd (Match.right (s := s) hm hq) hr
    | set _ hp' => 
      have h1 := (pinHash_some hp).1
      rw [hp'] at h1
      cases h1
      exact absurd rfl (pinHash_some hp).2
    | reset h => exact Or.inl (tries_of_pinCtr h.pinCtr)
  · refine Or.inl (otherOut_tries (step_other x s op env ?_))
    intro i q h
    exact hc ⟨i, q, h⟩

/-! ### C51 -/

/-- An attempt is charged at most once, whatever the candidate, the faults and the crash point. -/
theorem C51_charged_at_most_once (hx : x.Sized) (s : St) (op : Op) (env : Env) (hp : s.flash.pinHash ≠ none)
    (hr : ¬ Right x s op) :
    (step x s op env).1.flash.tries = s.flash.tries ∨
      (op.asks = true ∧ (step x s op env).1.flash.tries + 1 = s.flash.tries) := by
  cases h : s.flash.pinHash with
  | none => exact absurd h hp
  | some h' => exact wrong_tries hx h hr

theorem s_admin_key (p k : Bytes) : Sim (Flash.withPin p) (installKeyM k) := by
  unfold installKeyM
  sims (spin)
theorem s_admin_cert (p k : Bytes) : Sim (Flash.withPin p) (installCertM k) := by
  unfold installCertM
  sims (spin)
theorem s_admin_sm2 (p : Bytes) (c : Sm2) : Sim (Flash.withPin p) (writeSm2M c) := by
  unfold writeSm2M
  sims (spin)

/-- The step does the same with another PIN unless the counter changes or the right PIN is compared. -/
theorem blind_step {s : St} {op : Op} {env : Env} {p : Bytes} (hpin : s.flash.pinHash ≠ none) (hp : p ≠ [])
    (hr : Locked s.flash s.ram ∨ ¬ Right x s op) (ht : (step x s op env).1.flash.tries = s.flash.tries) :
    step x (s.withPin p) op env = ((step x s op env).1.withPin p, (step x s op env).2) := by
  cases hh : s.flash.pinHash with
  | none => exact absurd hh hpin
  | some h =>
    obtain ⟨h1, h2⟩ := pinHash_some hh
    cases op with
    | powerOn i => exact exec_blind (s := ⟨s.flash, Ram.init⟩) ((s_install i false).blind _) ht
    | cbor i q =>
      refine exec_blind (process_blind x i hp q h1 h2 ?_) ht
      intro c hq hc
      subst hq
      exact hr.imp id fun hr hm => hr (Match.right (s := s) hm hc)
    | u2f i q => exact exec_blind ((s_u2f x i q).blind _) ht
    | adminReset i => exact exec_blind ((s_install i true).blind _) ht
    | installKey k => exact exec_blind ((s_admin_key p k).blind _) ht
    | installCert k => exact exec_blind ((s_admin_cert p k).blind _) ht
    | writeSm2 c => exact exec_blind ((s_admin_sm2 p c).blind _) ht

/-- No free guess: take any operation that does not present the PIN that is set, any fault schedule and
any crash point.  If the retry counter on flash is afterwards what it was before, then the output and the
device are the same, up to the stored PIN itself, as with any other PIN set: nothing was learnt. -/
theorem C51_no_free_guess (s : St) (op : Op) (env : Env) (p : Bytes) (hpin : s.flash.pinHash ≠ none) (hp : p ≠ [])
    (hr : ¬ Right x s op) (ht : (step x s op env).1.flash.tries = s.flash.tries) :
    step x (s.withPin p) op env = ((step x s op env).1.withPin p, (step x s op env).2) :=
  blind_step hpin hp (Or.inr hr) ht

/-! ### C52 -/

theorem lockedOut_quiet {s : St} {op : Op} {env : Env} (hl : Locked s.flash s.ram)
    (hpin : s.flash.pinHash ≠ none) (ho : op.resets = false) (hb : op.powers = false) :
    ∃ now r r', Quiet now s.flash r (step x s op env).1.flash r' ∧ r.consec = s.ram.consec ∧
      (((step x s op env).2 = .cut ∧ (step x s op env).1.ram = Ram.init) ∨
        (step x s op env).1.ram.consec = s.ram.consec) := by
  cases hh : s.flash.pinHash with
  | none => exact absurd hh hpin
  | some h =>
    obtain ⟨h1, h2⟩ := pinHash_some hh
    cases op with
    | cbor i q =>
      have hq : q ≠ .reset := by
        intro hq
        subst hq
        cases ho
      unfold step
      refine exec_wp (P := fun p : St × Out => ∃ now r r', Quiet now s.flash r p.1.flash r' ∧ r.consec = s.ram.consec ∧
        ((p.2 = .cut ∧ p.1.ram = Ram.init) ∨ p.1.ram.consec = s.ram.consec)) (A := fun _ => True) (fun _ => trivial)
        (locked_process x i q hl h1 h2 hq) ?_ ?_ ?_ ?_
      · intro _ f r h
        exact ⟨_, _, r, h, rfl, Or.inr h.consec⟩
      · intro _ f r h
        exact ⟨_, _, r, h, rfl, Or.inr h.consec⟩
      · intro _ f r h
        exact ⟨_, _, r, h, rfl, Or.inr h.consec⟩
      · intro f r h
        exact ⟨_, _, r, h, rfl, Or.inl ⟨rfl, rfl⟩⟩
    | powerOn i => cases hb
    | adminReset i => cases ho
    | u2f i q =>
      have := step_other x s (.u2f i q) env (by intro _ _ h; cases h)
      revert this
      generalize step x s (.u2f i q) env = p
      intro this
      cases this with
      | u2f h => exact ⟨_, _, _, h, rfl, Or.inr h.consec⟩
      | u2fCut h => exact ⟨_, _, _, h, rfl, Or.inl ⟨rfl, rfl⟩⟩
      | admin _ _ h _ _ => exact absurd rfl (h i q)
    | installKey k =>
      have := step_other x s (.installKey k) env (by intro _ _ h; cases h)
      revert this
      generalize step x s (.installKey k) env = p
      intro this
      cases this with
      | admin _ _ _ h h' =>
        refine ⟨0, s.ram, _, h _ _, rfl, ?_⟩
        cases h' with
        | inl h => exact Or.inl h
        | inr h => exact Or.inr (by show (_ : Ram).consec = _; rw [h])
    | installCert k =>
      have := step_other x s (.installCert k) env (by intro _ _ h; cases h)
      revert this
      generalize step x s (.installCert k) env = p
      intro this
      cases this with
      | admin _ _ _ h h' =>
        refine ⟨0, s.ram, _, h _ _, rfl, ?_⟩
        cases h' with
        | inl h => exact Or.inl h
        | inr h => exact Or.inr (by show (_ : Ram).consec = _; rw [h])
    | writeSm2 c =>
      have := step_other x s (.writeSm2 c) env (by intro _ _ h; cases h)
      revert this
      generalize step x s (.writeSm2 c) env = p
      intro this
      cases this with
      | admin _ _ _ h h' =>
        refine ⟨0, s.ram, _, h _ _, rfl, ?_⟩
        cases h' with
        | inl h => exact Or.inl h
        | inr h => exact Or.inr (by show (_ : Ram).consec = _; rw [h])

/-- Booting an installed device leaves flash alone. -/
theorem boot_flash (i : In) {A : Fault → Prop} (hA : ¬ A .fail) {f : Flash} {r : Ram} (hl : f.lb.isSome = true) :
    wp A (install i false) (fun _ f' r' => f' = f ∧ r' = { installedRam i r with sm2 := r'.sm2 })
      (fun _ f' r' => f' = f ∧ r' = { installedRam i r with sm2 := r'.sm2 }) (fun f' _ => f' = f) f r := by
  unfold install
  apply wp_bind
  apply wp_mod
  apply wp_bind
  apply wp_rdF
  · intro _
    show wp A (if f.lb.isSome = true then _ else _) _ _ _ f _
    rw [if_pos hl]
    apply wp_bind
    apply wp_rdOr
    · intro s _
      apply wp_mod
      exact ⟨rfl, rfl⟩
    · intro _
      exact ⟨rfl, rfl⟩
    · intro _
      exact ⟨rfl, rfl⟩
    · intro _
      rfl
  · intro h
    exact absurd h hA
  · intro _
    rfl

theorem step_boot {s : St} {i : In} {env : Env} (hl : s.flash.lb.isSome = true) (he : noFail env) :
    (step x s (.powerOn i) env).1.flash = s.flash ∧
      (((step x s (.powerOn i) env).2 = .cut ∧ (step x s (.powerOn i) env).1.ram = Ram.init) ∨
      (step x s (.powerOn i) env).1.ram =
        { installedRam i Ram.init with sm2 := (step x s (.powerOn i) env).1.ram.sm2 }) := by
  unfold step
  refine exec_wp (P := fun p : St × Out => p.1.flash = s.flash ∧ ((p.2 = .cut ∧ p.1.ram = Ram.init) ∨
    p.1.ram = { installedRam i Ram.init with sm2 := p.1.ram.sm2 })) (A := fun a => a ≠ .fail) he
    (boot_flash i (fun h => h rfl) (f := s.flash) (r := Ram.init) hl) ?_ ?_ ?_ ?_
  · intro _ f r h
    exact ⟨h.1, Or.inr h.2⟩
  · intro _ f r h
    exact ⟨h.1, Or.inr h.2⟩
  · intro _ f r h
    exact ⟨h.1, Or.inr h.2⟩
  · intro f r h
    exact ⟨h, Or.inl ⟨rfl, rfl⟩⟩

/-- Eight wrong PINs: once the retry counter is 0, no history without a reset - whatever is presented,
the right PIN included, over any number of power cycles and with power cuts anywhere - depends on the PIN
that is set: with every other PIN all outputs are the same.  So no PIN is ever compared. -/
theorem C52_blocked_until_reset (s : St) (hs : s.flash.pinHash ≠ none) (ht : s.flash.tries = 0)
    (hl : s.flash.lb.isSome = true) (ops : List (Op × Env))
    (hops : ∀ o ∈ ops, o.1.resets = false ∧ (o.1.powers = true → noFail o.2)) (p : Bytes) (hp : p ≠ []) :
    run x (s.withPin p) ops = ((run x s ops).1.withPin p, (run x s ops).2) ∧
      (run x s ops).1.flash.pinHash = s.flash.pinHash := by
  induction ops generalizing s with
  | nil => exact ⟨rfl, rfl⟩
  | cons o ops ih =>
    obtain ⟨op, env⟩ := o
    have ho := hops (op, env) (List.mem_cons_self ..)
    have key : (step x s op env).1.flash.tries = s.flash.tries ∧
        (step x s op env).1.flash.pinHash = s.flash.pinHash ∧ (step x s op env).1.flash.lb.isSome = true := by
      cases hb : op.powers with
      | true =>
        cases op <;> try cases hb
        rw [(step_boot hl (ho.2 rfl)).1]
        exact ⟨rfl, rfl, hl⟩
      | false =>
        obtain ⟨now, r, r', hq, _⟩ := lockedOut_quiet (x := x) (env := env) (Or.inl ht) hs ho.1 hb
        exact ⟨tries_of_pinCtr hq.pinCtr, pinHash_of_pin hq.pin, hq.lb hl⟩
    have hstep := blind_step (x := x) hs hp (Or.inl (Or.inl ht)) key.1
    have := ih (step x s op env).1 (by rw [key.2.1]; exact hs) (key.1.trans ht) key.2.2
      (fun o ho => hops o (List.mem_cons_of_mem _ ho))
    unfold run
    rw [hstep]
    simp only
    rw [this.1]
    exact ⟨rfl, this.2.trans key.2.1⟩

/-- Three wrong PINs: once the session's counter is 0, no history without a power cycle or reset depends
on the PIN that is set, whatever is presented. -/
theorem C52_locked_until_power_cycle (s : St) (hs : s.flash.pinHash ≠ none) (hc : s.ram.consec = 0)
    (ops : List (Op × Env)) (hops : ∀ o ∈ ops, o.1.resets = false ∧ o.1.powers = false) (p : Bytes) (hp : p ≠ []) :
    run x (s.withPin p) ops = ((run x s ops).1.withPin p, (run x s ops).2) ∧
      (run x s ops).1.flash.pinHash = s.flash.pinHash ∧ (run x s ops).1.flash.tries = s.flash.tries := by
  induction ops generalizing s with
  | nil => exact ⟨rfl, rfl, rfl⟩
  | cons o ops ih =>
    obtain ⟨op, env⟩ := o
    have ho := hops (op, env) (List.mem_cons_self ..)
    obtain ⟨now, r, r', hq, _, hram⟩ := lockedOut_quiet (x := x) (env := env) (Or.inr hc) hs ho.1 ho.2
    have ht := tries_of_pinCtr hq.pinCtr
    have hph := pinHash_of_pin hq.pin
    have hc' : (step x s op env).1.ram.consec = 0 := by
      cases hram with
      | inl h => rw [h.2]; rfl
      | inr h => rw [h, hc]
    have hstep := blind_step (x := x) hs hp (Or.inl (Or.inr hc)) ht
    have := ih (step x s op env).1 (by rw [hph]; exact hs) hc' (fun o ho => hops o (List.mem_cons_of_mem _ ho))
    unfold run
    rw [hstep]
    simp only
    rw [this.1]
    exact ⟨rfl, this.2.1.trans hph, this.2.2.trans ht⟩

/-- The wrong PINs of a session: without a power cycle, reset or file-system error, and as long as the
PIN that is set is not presented, at most as many attempts are charged as the session's counter allows
(three after power-up).  Requests carry a complete encrypted PIN hash. -/
theorem C52_three_per_session (hx : x.Sized) (s : St) (h : Bytes) (hs : s.flash.pinHash = some h) (hlen : 16 ≤ h.length)
    (ops : List (Op × Env)) (hops : ∀ o ∈ ops, o.1.resets = false ∧ o.1.powers = false ∧ noFail o.2)
    (hfull : ∀ o ∈ ops, o.1.full)
    (hr : NeverRight x s ops) :
    s.flash.tries ≤ (run x s ops).1.flash.tries + s.ram.consec.toNat := by
  induction ops generalizing s with
  | nil => exact Nat.le_add_right _ _
  | cons o ops ih =>
    obtain ⟨op, env⟩ := o
    have ho := hops (op, env) (List.mem_cons_self ..)
    have hr1 : ¬ Right x s op := hr.1
    have key : (step x s op env).1.flash.pinHash = some h ∧
        s.flash.tries ≤ (run x (step x s op env).1 ops).1.flash.tries + s.ram.consec.toNat := by
      have ind : ∀ s' : St, s' = (step x s op env).1 → s'.flash.pinHash = some h →
          s'.flash.tries ≤ (run x (step x s op env).1 ops).1.flash.tries + s'.ram.consec.toNat := by
        intro s' e h'
        rw [e] at h' ⊢
        exact ih _ h' (fun o ho => hops o (List.mem_cons_of_mem _ ho)) (fun o ho => hfull o (List.mem_cons_of_mem _ ho))
          hr.2
      by_cases hl : Locked s.flash s.ram
      · obtain ⟨now, r, r', hq, _, hram⟩ := lockedOut_quiet (x := x) (env := env) hl (by rw [hs]; simp) ho.1 ho.2.1
        have hph := (pinHash_of_pin hq.pin).trans hs
        refine ⟨hph, ?_⟩
        have := ind _ rfl hph
        rw [tries_of_pinCtr hq.pinCtr] at this
        cases hram with
        | inl h' =>
          rw [h'.2] at this
          exact Nat.le_trans this (Nat.add_le_add_left (Nat.zero_le _) _)
        | inr h' => rw [h'] at this; exact this
      · have hcs : 1 ≤ s.ram.consec.toNat := by
          cases hz : s.ram.consec.toNat with
          | zero => exact absurd (Or.inr (UInt8.toNat_inj.mp hz)) hl
          | succ n => exact Nat.succ_le_succ (Nat.zero_le _)
        by_cases hcb : ∃ i q, op = .cbor i q
        · obtain ⟨i, q, rfl⟩ := hcb
          obtain ⟨o, r', he, hout⟩ := step_cbor (A := fun a => a ≠ .fail) x i hx s q (env := env) ho.2.2
          have hpin := (pinHash_some hs).1
          -- without a charge
          have same : ∀ f' : Flash, f' = (step x s (.cbor i q) env).1.flash → rdCert (·.pin) f' = rdCert (·.pin) s.flash →
              f'.tries = s.flash.tries →
              ((step x s (.cbor i q) env).1.ram = Ram.init ∨ (step x s (.cbor i q) env).1.ram.consec = s.ram.consec) →
              (step x s (.cbor i q) env).1.flash.pinHash = some h ∧
              s.flash.tries ≤ (run x (step x s (.cbor i q) env).1 ops).1.flash.tries + s.ram.consec.toNat := by
            intro f' e h1 h2 h3
            subst e
            have hph := (pinHash_of_pin h1).trans hs
            refine ⟨hph, ?_⟩
            have := ind _ rfl hph
            rw [h2] at this
            cases h3 with
            | inl h' =>
              rw [h'] at this
              exact Nat.le_trans this (Nat.add_le_add_left (Nat.zero_le _) _)
            | inr h' => rw [h'] at this; exact this
          -- with a charge
          have less : ∀ f' : Flash, f' = (step x s (.cbor i q) env).1.flash → Charged s.flash f' →
              ((step x s (.cbor i q) env).1.ram = Ram.init ∨ f'.tries = 0 ∨
                (step x s (.cbor i q) env).1.ram.consec = s.ram.consec - 1) →
              (step x s (.cbor i q) env).1.flash.pinHash = some h ∧
              s.flash.tries ≤ (run x (step x s (.cbor i q) env).1 ops).1.flash.tries + s.ram.consec.toNat := by
            intro f' e h1 h3
            subst e
            have hph := (pinHash_of_pin h1.pin).trans hs
            refine ⟨hph, ?_⟩
            have := ind _ rfl hph
            have hch := h1.tries
            rcases h3 with h' | h' | h'
            · rw [h'] at this
              have h0 : Ram.init.consec.toNat = 0 := rfl
              omega
            · omega
            · rw [h', UInt8.toNat_sub_of_le _ _ (by rw [UInt8.le_iff_toNat_le]; exact hcs)] at this
              have h1 : (1 : UInt8).toNat = 1 := rfl
              omega
          have ram : ∀ r'' : Ram, r''.consec = s.ram.consec → r'' = r' →
              ((step x s (.cbor i q) env).1.ram = Ram.init ∨ (step x s (.cbor i q) env).1.ram.consec = s.ram.consec) := by
            intro r'' h1 h2
            rcases hout with h | h
            · exact Or.inl h.2.2
            · exact Or.inr (by rw [h.1, ← h2, h1])
          revert he
          generalize hf : (step x s (.cbor i q) env).1.flash = f'
          intro he
          cases he with
          | quiet h => exact hf ▸ same f' hf.symm h.pin (tries_of_pinCtr h.pinCtr) (ram r' h.consec rfl)
          | token hq hm => exact absurd (Match.right (s := s) hm (Or.inr hq)) hr1
          | changed n hq hm => exact absurd (Match.right (s := s) hm (Or.inl hq)) hr1
          | failed hq hfail hlast =>
            cases hfail with
            | early => exact hf ▸ same _ hf.symm rfl rfl (ram r' (by rw [hlast]; rfl) rfl)
            | unread _ _ hch hu =>
              rcases hu with hu | hu | hu
              · exact absurd rfl hu
              · exact absurd hu.2 (Nat.not_lt.mpr (hfull _ (List.mem_cons_self ..)))
              · exact absurd (hu h hpin) (by omega)
            | wrong _ _ r1 _ hw hrr =>
              refine hf ▸ less f' hf.symm hw.charged ?_
              rcases hout with h' | h'
              · exact Or.inl h'.2.2
              · rcases hw.out with h'' | h''
                · exact Or.inr (Or.inl h''.1)
                · refine Or.inr (Or.inr ?_)
                  rw [h'.1, hlast]
                  exact h''.2.1
            | right _ _ _ _ hm => exact absurd (Match.right (s := s) hm hq) hr1
          | cut hq hcut =>
            rename_i q'
            have hi : (step x s (.cbor i (.cp (.ok q'))) env).1.ram = Ram.init := by
              rcases hout with h' | h'
              · exact h'.2.2
              · rcases h'.2 with ⟨_, h, _⟩ | ⟨_, h, _⟩ | ⟨_, h, _⟩ <;> cases h
            cases hcut with
            | early => exact hf ▸ same _ hf.symm rfl rfl (Or.inl hi)
            | charged _ hch => exact hf ▸ less f' hf.symm hch (Or.inl hi)
            | right _ _ _ hm => exact absurd (Match.right (s := s) hm hq) hr1
          | set _ hp' =>
            rw [hp'] at hpin
            cases hpin
            exact absurd rfl (pinHash_some hs).2
          | reset h => cases ho.1
        · have hoth := step_other x s op env (fun i q h => hcb ⟨i, q, h⟩)
          have hq : ∃ now r r', Quiet now s.flash r (step x s op env).1.flash r' ∧
              ((step x s op env).1.ram = Ram.init ∨ (step x s op env).1.ram.consec = s.ram.consec) := by
            revert hoth
            generalize step x s op env = p
            intro hoth
            cases hoth with
            | boot => cases ho.2.1
            | reset => cases ho.1
            | u2f h => exact ⟨_, _, _, h, Or.inr h.consec⟩
            | u2fCut h => exact ⟨_, _, _, h, Or.inl rfl⟩
            | admin _ _ _ h h' =>
              refine ⟨0, s.ram, _, h _ _, ?_⟩
              cases h' with
              | inl h => exact Or.inl h.2
              | inr h => exact Or.inr (by show (_ : Ram).consec = _; rw [h])
          obtain ⟨now, r, r', hq, hram⟩ := hq
          have hph := (pinHash_of_pin hq.pin).trans hs
          refine ⟨hph, ?_⟩
          have := ind _ rfl hph
          rw [tries_of_pinCtr hq.pinCtr] at this
          cases hram with
          | inl h' =>
            rw [h'] at this
            exact Nat.le_trans this (Nat.add_le_add_left (Nat.zero_le _) _)
          | inr h' => rw [h'] at this; exact this
    exact key.2

end Verif.Ctap
