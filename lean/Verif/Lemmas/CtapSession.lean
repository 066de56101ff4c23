import Verif.Lemmas.CtapResp
/-
A sequence of assertions: getAssertion and the getNextAssertion commands that continue it.
-/
namespace Verif.Ctap
open Cmd

/-- In the middle of an assertion sequence. -/
def Ram.going (r : Ram) : Prop := r.lastCmd = 0x02 ∨ r.lastCmd = 0x08

/-- Two states of the same assertion sequence. -/
structure Cont (s s' : St) : Prop where
  uv : s'.ram.ga.uv = s.ram.ga.uv
  up : s'.ram.ga.up = true → s.ram.ga.up = true
  num : s'.ram.ga.num = s.ram.ga.num
  list : s'.ram.ga.list = s.ram.ga.list
  req : ∃ h, s'.ram.ga.req = { s.ram.ga.req with hs := h }
  dc : s'.flash.dc = s.flash.dc
  kh : rdCert (·.kh) s'.flash = rdCert (·.kh) s.flash
  ctr : s.ram.ga.ctr ≤ s'.ram.ga.ctr

theorem Cont.refl (s : St) : Cont s s := ⟨rfl, id, rfl, rfl, ⟨_, rfl⟩, rfl, rfl, Nat.le_refl _⟩
theorem Cont.trans {s s' s'' : St} (a : Cont s s') (b : Cont s' s'') : Cont s s'' := by
  refine ⟨b.uv.trans a.uv, fun h => a.up (b.up h), b.num.trans a.num, b.list.trans a.list, ?_, b.dc.trans a.dc, b.kh.trans a.kh,
    Nat.le_trans a.ctr b.ctr⟩
  obtain ⟨h, ha⟩ := a.req
  obtain ⟨h', hb⟩ := b.req
  exact ⟨h', by rw [hb, ha]⟩

/-- RAM and the credential store are untouched. -/
def Aside : FRel := fun f r f' r' => r' = { r with sm2 := r'.sm2 } ∧ f'.dc = f.dc ∧ rdCert (·.kh) f' = rdCert (·.kh) f
instance : Pre Aside where
  refl _ _ := ⟨rfl, rfl, rfl⟩
  trans _ _ _ _ _ _ a b := ⟨by rw [b.1, a.1], b.2.1.trans a.2.1, b.2.2.trans a.2.2⟩

theorem rdCert_upd {α : Type} {p : Cert → Option α} {g : Cert → Cert} (hg : ∀ c, p (g c) = p c) {f f' : Flash}
    (h : updCert g f = some f') : rdCert p f' = rdCert p f ∧ f'.dc = f.dc ∧ f'.lb = f.lb ∧ f'.lbt = f.lbt := by
  unfold updCert at h
  cases hc : f.cert with
  | none => rw [hc] at h; cases h
  | some c =>
    rw [hc] at h
    cases h
    refine ⟨?_, rfl, rfl, rfl⟩
    unfold rdCert
    rw [hc]
    exact hg c

theorem Aside.upd {g : Cert → Cert} (hg : ∀ c, (g c).kh = c.kh) {f f' : Flash} {r : Ram}
    (h : updCert g f = some f') : Aside f r f' r :=
  ⟨rfl, (rdCert_upd hg h).2.1, (rdCert_upd hg h).1⟩

macro "aside" : tactic => `(tactic| first
  | (intro _ _ _ h; exact Aside.upd (by intro _; rfl) h)
  | (intro _ _; exact ⟨rfl, rfl, rfl⟩))

section
variable (x : Ext) (i : In)

theorem as_increase : Rel Aside increaseCounter := by
  unfold increaseCounter
  rels (aside)
theorem as_makeAuthData (rp : Bytes) (fl : Byte) (alg : UInt32) (dc cp : Byte) :
    Rel Aside (makeAuthData x i rp fl alg dc cp) := by
  unfold makeAuthData
  rels (first | exact as_increase | aside)
theorem as_u2f (q : UReq) : Rel Aside (u2f x i q) := by
  unfold u2f uTouch
  rels (first | exact as_makeAuthData x i _ _ _ _ _ | aside)
theorem as_installKey (k : Bytes) : Rel Aside (installKeyM k) := by
  unfold installKeyM
  rels (aside)
theorem as_installCert (k : Bytes) : Rel Aside (installCertM k) := by
  unfold installCertM
  apply Rel.wrOr
  intro f r f' h
  cases h
  refine ⟨rfl, rfl, ?_⟩
  unfold rdCert
  cases hc : f.cert <;> rfl
theorem as_writeSm2 (k : Sm2) : Rel Aside (writeSm2M k) := by
  unfold writeSm2M
  rels (aside)

theorem Aside.cont {f f' : Flash} {r r' : Ram} (h : Aside f r f' r') : Cont ⟨f, r⟩ ⟨f', r'⟩ := by
  obtain ⟨h1, h2, h3⟩ := h
  rw [h1]
  exact ⟨rfl, id, rfl, rfl, ⟨_, rfl⟩, h2, h3, Nat.le_refl _⟩

theorem not_going_init : ¬ Ram.init.going := by
  unfold Ram.going
  decide

theorem not_going_ff {r : Ram} (h : r.lastCmd = 0xFF) : ¬ r.going := by
  unfold Ram.going
  rw [h]
  decide

/-- Operations that are not CTAP2 commands leave the sequence alone, or end it. -/
theorem step_aside {s : St} {op : Op} {env : Env} (h : ∀ i q, op ≠ .cbor i q)
    (hg : (step x s op env).1.ram.going) :
    s.ram.going ∧ Cont s (step x s op env).1 ∧ (step x s op env).1.ram.ga = s.ram.ga ∧
      Aside s.flash s.ram (step x s op env).1.flash (step x s op env).1.ram := by
  have key : ∀ {α : Type} (m : M α) (g : α → Out), Rel Aside m → (exec m g s env).1.ram.going →
      s.ram.going ∧ Cont s (exec m g s env).1 ∧ (exec m g s env).1.ram.ga = s.ram.ga ∧
      Aside s.flash s.ram (exec m g s env).1.flash (exec m g s env).1.ram := by
    intro α m g hm
    refine exec_wp (P := fun p : St × Out => p.1.ram.going → s.ram.going ∧ Cont s p.1 ∧ p.1.ram.ga = s.ram.ga ∧
      Aside s.flash s.ram p.1.flash p.1.ram)
      (A := fun _ => True) (fun _ => trivial) (hm _ _ _) ?_ ?_ ?_ ?_
    · intro _ f' r' h hg
      have h1 := h.1
      refine ⟨?_, h.cont, ?_, h⟩
      · rw [h1] at hg; exact hg
      · rw [h1]
    · intro _ f' r' h hg
      have h1 := h.1
      refine ⟨?_, h.cont, ?_, h⟩
      · rw [h1] at hg; exact hg
      · rw [h1]
    · intro _ f' r' h hg
      have h1 := h.1
      refine ⟨?_, h.cont, ?_, h⟩
      · rw [h1] at hg; exact hg
      · rw [h1]
    · intro _ _ _ hg
      exact absurd hg not_going_init
  cases op with
  | cbor i q => exact absurd rfl (h i q)
  | powerOn i =>
    exfalso
    have := step_other x s (.powerOn i) env h
    revert hg
    generalize step x s (.powerOn i) env = p at this
    intro hg
    cases this with
    | boot h1 h2 =>
      rcases h2 with ⟨_, h2⟩ | h2
      · subst h2; exact not_going_init hg
      · refine not_going_ff ?_ hg
        show Ram.lastCmd _ = 0xFF
        rw [h2]
        rfl
    | admin h1 _ _ _ _ => exact h1 i rfl
  | adminReset i =>
    exfalso
    have := step_other x s (.adminReset i) env h
    revert hg
    generalize step x s (.adminReset i) env = p at this
    intro hg
    cases this with
    | reset h1 h2 =>
      rcases h2 with ⟨_, h2⟩ | h2
      · subst h2; exact not_going_init hg
      · refine not_going_ff ?_ hg
        show Ram.lastCmd _ = 0xFF
        rw [h2]
        rfl
    | admin _ h1 _ _ _ => exact h1 i rfl
  | u2f i q => exact key _ _ (as_u2f x i q) hg
  | installKey k => exact key _ _ (as_installKey k) hg
  | installCert k => exact key _ _ (as_installCert k) hg
  | writeSm2 k => exact key _ _ (as_writeSm2 k) hg

/-- A CTAP2 command after which the sequence goes on: getAssertion or getNextAssertion, answered. -/
theorem step_going {s : St} {q : Req} {env : Env} (hu : ∀ u, (step x s (.cbor i q) env).2 ≠ .ub u)
    (hg : (step x s (.cbor i q) env).1.ram.going) :
    (∃ g, (step x s (.cbor i q) env).2 = .resp g) ∧ (q.cmd = 0x02 ∨ q.cmd = 0x08) := by
  revert hu hg
  unfold step
  have : wp (fun _ => True) (process x i q) (fun _ _ r' => r'.lastCmd = q.cmd)
      (fun e _ r' => (∃ u, e = .ub u) ∨ r'.lastCmd = 0xFF) (fun _ _ => True) s.flash s.ram := by
    unfold process
    apply wp_bind
    apply wp_mod
    apply wp_bind
    apply wp_catch
    refine wp_mono (wp_true _) ?_ ?_ (fun _ _ _ => trivial)
    · intro a f' r' _
      apply wp_bind
      apply wp_mod
      exact wp_pure rfl
    · intro e f' r' _
      cases e with
      | code c =>
        apply wp_bind
        apply wp_mod
        exact wp_fail (Or.inr rfl)
      | ub u => exact wp_throw (Or.inl ⟨u, rfl⟩)
  refine exec_wp (P := fun p : St × Out => (∀ u, p.2 ≠ .ub u) → p.1.ram.going → (∃ g, p.2 = .resp g) ∧ (q.cmd = 0x02 ∨ q.cmd = 0x08))
    (A := fun _ => True) (fun _ => trivial) this ?_ ?_ ?_ ?_
  · intro a f' r' h _ hg
    refine ⟨⟨a, rfl⟩, ?_⟩
    unfold Ram.going at hg
    rw [h] at hg
    exact hg
  · intro c f' r' h _ hg
    rcases h with ⟨u, h⟩ | h
    · cases h
    · exact absurd hg (not_going_ff h)
  · intro u f' r' _ hu
    exact absurd rfl (hu u)
  · intro f' r' _ _ hg
    exact absurd hg not_going_init

theorem other_not_resp {s : St} {c : Byte} {env : Env} {g : Resp} : (step x s (.cbor i (.other c)) env).2 ≠ .resp g := by
  intro h
  have := resp_of x i (s := s) (q := .other c) (Q := fun _ _ _ => False) (by unfold handle; exact wp_fail trivial) h
  obtain ⟨_, h, _⟩ := this
  exact h

/-- What a response to getAssertion means. -/
structure Begun (s : St) (q : GaReq) (g : GaResp) (s' : St) : Prop where
  done : ∃ d f1 r1, Stored s.flash (aged i s.ram) f1 (aged i s.ram) ∧ r1.ga.up = false ∧ r1.ga.ctr = 0 ∧ r1.ga.req = q ∧
    r1.tok.presentFlag = (aged i s.ram).tok.presentFlag ∧
    (r1.ga.uv = true → Authorized x (s.ram.tok.observe i.tick) permGa q.rpHash q.cdh q.pinAuth (q.proto.getD 0)) ∧
    r1 = { aged i s.ram with tok := r1.tok, ga := r1.ga } ∧
    ∃ r', GaDone x i f1 r1 g s'.flash r' d ∧ s'.ram = { r' with lastCmd := 0x02 }

theorem ga_resp {s : St} {q : Except Byte GaReq} {env : Env} {a : Resp}
    (h : (step x s (.cbor i (.ga q)) env).2 = .resp a) :
    ∃ q' g, q = .ok q' ∧ a = .ga g ∧ Begun x i s q' g (step x s (.cbor i (.ga q)) env).1 := by
  cases q with
  | error c =>
    exfalso
    have := resp_of x i (s := s) (q := .ga (.error c)) (Q := fun _ _ _ => False) ?_ h
    · obtain ⟨_, h, _⟩ := this
      exact h
    · unfold handle getAssertion
      apply wp_bind
      apply wp_mod
      apply wp_bind
      apply wp_frame st_consistency
      intro _ f1 r1 _
      exact wp_fail trivial
  | ok q =>
    obtain ⟨r', ⟨g, d, f1, r1, hg, h1, h2, h3, h4, h5, h6, h7, h8⟩, h9⟩ := resp_of x i (s := s) (q := .ga (.ok q)) (wp_getAssertion x i q) h
    exact ⟨q, g, rfl, hg, ⟨d, f1, r1, h1, h4, h5, h6, h3, h2, h7, r', h8, h9⟩⟩

theorem gna_resp {s : St} {env : Env} {a : Resp}
    (h : (step x s (.cbor i .gna) env).2 = .resp a) :
    ∃ g d r', a = .ga g ∧ s.ram.going ∧ s.ram.ga.ctr < s.ram.ga.num ∧ i.tick - s.ram.ga.timer ≤ 30000 ∧
      GaDone x i s.flash (aged i s.ram) g (step x s (.cbor i .gna) env).1.flash r' d ∧
      (step x s (.cbor i .gna) env).1.ram = { r' with lastCmd := 0x08 } := by
  obtain ⟨r', ⟨h1, h2, h3, g, d, h4, h5⟩, h6⟩ := resp_of x i (s := s) (q := .gna) (wp_getNext x i) h
  exact ⟨g, d, r', h4, h1, h2, h3, h5, h6⟩

theorem run_snoc (s : St) (ops : List (Op × Env)) (o : Op × Env) :
    run x s (ops ++ [o]) = ((step x (run x s ops).1 o.1 o.2).1, (run x s ops).2 ++ [(step x (run x s ops).1 o.1 o.2).2]) := by
  induction ops generalizing s with
  | nil => rfl
  | cons a l ih =>
    obtain ⟨op, env⟩ := a
    show ((run x (step x s op env).1 (l ++ [o])).1, (step x s op env).2 :: (run x (step x s op env).1 (l ++ [o])).2) = _
    rw [ih]
    rfl

theorem snocInduction {α : Type} {P : List α → Prop} (h0 : P []) (h : ∀ l a, P l → P (l ++ [a])) (l : List α) : P l := by
  have : ∀ l : List α, P l.reverse := by
    intro l
    induction l with
    | nil => exact h0
    | cons a l ih => rw [List.reverse_cons]; exact h _ _ ih
  have := this l.reverse
  rwa [List.reverse_reverse] at this

/-- After getAssertion: one assertion has been given, and it is the last if credentials were named. -/
theorem begun_named {s : St} {q : GaReq} {env : Env} {g : GaResp}
    (h : (step x s (.cbor i (.ga (.ok q))) env).2 = .resp (.ga g)) :
    (step x s (.cbor i (.ga (.ok q))) env).1.ram.ga.ctr = 1 ∧
    ((step x s (.cbor i (.ga (.ok q))) env).1.ram.ga.req.allow ≠ [] → (step x s (.cbor i (.ga (.ok q))) env).1.ram.ga.num = 1) := by
  obtain ⟨q', g', hq, _, hb⟩ := ga_resp x i h
  cases hq
  obtain ⟨d, f1, r1, h1, h2, h3, h4, h5, h6, h7, r', hd, hr⟩ := hb.done
  rw [hr]
  constructor
  · show r'.ga.ctr = 1
    rw [hd.ramCtr, h3]
  · intro ha
    obtain ⟨hs, hreq⟩ := hd.ramReq
    refine (hd.chosen.named ?_).1
    intro h
    apply ha
    show r'.ga.req.allow = []
    rw [hreq]
    exact h

theorem gna_cont {s0 s s' : St} {g : GaResp} {r' : Ram} {d : Dc}
    (h0 : s0.ram.ga.ctr = 1 ∧ (s0.ram.ga.req.allow ≠ [] → s0.ram.ga.num = 1)) (hc : Cont s0 s)
    (hn : s.ram.ga.ctr < s.ram.ga.num) (hd : GaDone x i s.flash (aged i s.ram) g s'.flash r' d)
    (hr : s'.ram = { r' with lastCmd := 0x08 }) : Cont s s' := by
  have hctr : s.ram.ga.ctr ≠ 0 := by
    have := hc.ctr
    have := h0.1
    omega
  have hallow : s.ram.ga.req.allow = [] := by
    obtain ⟨h, hq⟩ := hc.req
    rw [hq]
    refine Classical.byContradiction fun ha => ?_
    have := h0.2 ha
    have := hc.ctr
    have := hc.num
    have := h0.1
    omega
  obtain ⟨recs, kh, _, _, _, _, _, _, hl⟩ := hd.chosen.found hallow
  have hl := hl hctr
  obtain ⟨c, _, _, hf⟩ := hd.ctr
  refine ⟨?_, ?_, ?_, ?_, ?_, ?_, ?_, ?_⟩
  · rw [hr]; exact hd.ramUv
  · intro h
    rw [hr] at h
    have h : r'.ga.up = true := h
    rw [hd.ramUp] at h
    rcases hd.up h with h | h
    · exact absurd h.1 hctr
    · exact h
  · rw [hr]; exact hl.2
  · rw [hr]; exact hl.1
  · rw [hr]; exact hd.ramReq
  · rw [hf]
  · rw [hf]
    unfold rdCert
    cases s.flash.cert <;> rfl
  · rw [hr]
    show _ ≤ r'.ga.ctr
    rw [hd.ramCtr]
    exact Nat.le_succ _

/-- While a sequence goes on, it started with an answered getAssertion, and nothing of it has changed
since. -/
theorem session {s : St} (h0 : ¬ s.ram.going) (ops : List (Op × Env)) (hu : ∀ u, .ub u ∉ (run x s ops).2)
    (hg : (run x s ops).1.ram.going) :
    ∃ pre i q env g post, ops = pre ++ (.cbor i (.ga (.ok q)), env) :: post ∧
      (step x (run x s pre).1 (.cbor i (.ga (.ok q))) env).2 = .resp (.ga g) ∧
      Cont (step x (run x s pre).1 (.cbor i (.ga (.ok q))) env).1 (run x s ops).1 := by
  induction ops using snocInduction with
  | h0 => exact absurd hg h0
  | h l a ih =>
    obtain ⟨op, env⟩ := a
    rw [run_snoc] at hg hu
    have ih' := ih (fun u hm => hu u (List.mem_append_left _ hm))
    have ext : (run x s l).1.ram.going → Cont (run x s l).1 (step x (run x s l).1 op env).1 →
        ∃ pre i q env' g post, l ++ [(op, env)] = pre ++ (.cbor i (.ga (.ok q)), env') :: post ∧
        (step x (run x s pre).1 (.cbor i (.ga (.ok q))) env').2 = .resp (.ga g) ∧
        Cont (step x (run x s pre).1 (.cbor i (.ga (.ok q))) env').1 (run x s (l ++ [(op, env)])).1 := by
      intro h1 h2
      obtain ⟨pre, i, q, env0, g, post, e, ho, hc⟩ := ih' h1
      refine ⟨pre, i, q, env0, g, post ++ [(op, env)], by rw [e]; simp, ho, ?_⟩
      rw [run_snoc]
      exact hc.trans h2
    by_cases hop : ∃ i q, op = .cbor i q
    · obtain ⟨i, q, rfl⟩ := hop
      have hu' : ∀ u, (step x (run x s l).1 (.cbor i q) env).2 ≠ .ub u := by
        intro u h
        exact hu u (List.mem_append_right _ (by rw [← h]; exact List.mem_singleton.mpr rfl))
      obtain ⟨⟨a, ha⟩, hc⟩ := step_going x i hu' hg
      cases q with
      | ga q =>
        obtain ⟨q', g, rfl, rfl, _⟩ := ga_resp x i ha
        exact ⟨l, i, q', env, g, [], rfl, ha, by rw [run_snoc]; exact Cont.refl _⟩
      | gna =>
        obtain ⟨g, d, r', rfl, h1, h2, h3, h4, h5⟩ := gna_resp x i ha
        apply ext h1
        obtain ⟨pre, i0, q0, env0, g0, post, e, ho, hc⟩ := ih' h1
        exact gna_cont x i (begun_named x i0 ho) hc h2 h4 h5
      | other c => exact absurd ha (other_not_resp x i)
      | mc q => exact absurd hc (by simp [Req.cmd])
      | info => exact absurd hc (by simp [Req.cmd])
      | cp q => exact absurd hc (by simp [Req.cmd])
      | reset => exact absurd hc (by simp [Req.cmd])
      | cm q => exact absurd hc (by simp [Req.cmd])
      | sel => exact absurd hc (by simp [Req.cmd])
      | lb q => exact absurd hc (by simp [Req.cmd])
    · have h := step_aside x (fun i q h => hop ⟨i, q, h⟩) hg
      exact ext h.1 h.2.1

end
end Verif.Ctap
