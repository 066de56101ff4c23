import Verif.Lemmas.CtapCtr
import Verif.Props.CtapToken
import Verif.Spec.CtapToy
/-
C58, C59, C60, C75: credential protection, the signature counter, and user presence.
-/
namespace Verif.Ctap
open Cmd

variable {x : Ext}

theorem protect3 {cid : Bytes} {l uv : Bool} (h : protectOk cid l uv = true) (h3 : Cid.cp cid = 3) : uv = true := by
  unfold protectOk at h
  rw [h3] at h
  exact h

theorem protect2 {cid : Bytes} {l uv : Bool} (h : protectOk cid l uv = true) (h2 : Cid.cp cid = 2) : uv = true ∨ l = true := by
  unfold protectOk at h
  rw [h2] at h
  simpa using h

/-- getAssertion uses a credential with protection 3 (userVerificationRequired) only with user verification,
and one with protection 2 (userVerificationOptionalWithCredentialIDList) only with user verification or if
the relying party named credentials, this one among them. -/
theorem C58_assertion (s : St) (i : In) (q : GaReq) (env : Env) (g : GaResp)
    (h : (step x s (.cbor i (.ga (.ok q))) env).2 = .resp (.ga g)) :
    (Cid.cp g.cid = 3 → g.ad.uv = true) ∧
    (Cid.cp g.cid = 2 → g.ad.uv = true ∨ (q.allow ≠ [] ∧
      ((∀ c ∈ q.allow, c.length = 70) → ∃ e ∈ q.allow, Cid.nonce e = Cid.nonce g.cid ∧ Cid.rp e = Cid.rp g.cid))) := by
  obtain ⟨q', g', hq, hg, hb⟩ := ga_resp x i h
  cases hq
  cases hg
  obtain ⟨d, f1, r1, _, _, h3, h4, _, _, _, r', hd, hr'⟩ := hb.done
  have hp := hd.protect
  rw [← hd.cid] at hp
  refine ⟨protect3 hp, fun h2 => ?_⟩
  rcases protect2 hp h2 with h5 | h5
  · exact Or.inl h5
  · refine Or.inr ?_
    rw [h4] at h5
    have hne : q.allow ≠ [] := by
      intro he
      rw [he] at h5
      cases h5
    refine ⟨hne, fun hl => ?_⟩
    obtain ⟨_, _, e, he, hm⟩ := hd.chosen.named (by rw [h4]; exact hne)
    refine ⟨e, ?_, ?_, ?_⟩
    · have := hm (by rw [h4]; exact hl)
      rwa [h4] at this
    · rw [hd.cid]; exact he.nonce.symm
    · rw [hd.cid, he.rpE, he.rp]

/-- getNextAssertion uses a protected credential (2 or 3) only with user verification, in any history. -/
theorem C58_next_assertion (s : St) (hl : ¬ s.ram.going) (ops : List (Op × Env)) (hu : ∀ u, .ub u ∉ (run x s ops).2)
    (i : In) (env : Env) (g : GaResp) (h : (step x (run x s ops).1 (.cbor i .gna) env).2 = .resp (.ga g))
    (hc : Cid.cp g.cid = 2 ∨ Cid.cp g.cid = 3) : g.ad.uv = true := by
  obtain ⟨g0, d, r', hg, h1, h2, h3, hd, h5⟩ := gna_resp x i h
  cases hg
  obtain ⟨pre, j, q, env', g', post, e, ho, hcont⟩ := session x hl ops hu h1
  have hb := begun_named x j ho
  have hallow : (run x s ops).1.ram.ga.req.allow = [] := by
    obtain ⟨h, hq⟩ := hcont.req
    rw [hq]
    refine Classical.byContradiction fun ha => ?_
    have := hb.2 ha
    have := hcont.ctr
    have := hcont.num
    have := hb.1
    omega
  have hp := hd.protect
  rw [← hd.cid] at hp
  rcases hc with h2 | h3
  · rcases protect2 hp h2 with h | h
    · exact h
    · exfalso
      have : (aged i (run x s ops).1.ram).ga.req.allow = [] := hallow
      rw [this] at h
      cases h
  · exact protect3 hp h3

/-- The signature counter on flash never falls, and rises by at most one in each operation that is not a
reset. -/
theorem C60_step (s : St) (op : Op) (env : Env) (hr : op.resets = false) (hl : s.flash.lb.isSome = true)
    (hp : op.powers = true → noFail env) :
    (step x s op env).1.flash.lb.isSome = true ∧
    ((step x s op env).1.flash.counter = s.flash.counter ∨
      ∃ c, s.flash.counter = some c ∧ (step x s op env).1.flash.counter = some (c + 1)) := by
  have hb := step_bump (x := x) (s := s) (env := env) hr (by
    intro hpw
    cases op with
    | powerOn i => exact (step_boot hl (hp hpw)).1
    | _ => cases hpw)
  exact ⟨hb.lb hl, hb.ctr⟩

/-- The counter in a signature is on flash when the signature is given, and was not before. -/
theorem C60_persisted (s : St) (op : Op) (env : Env) (c : UInt32) (h : (step x s op env).2.counter = some c) :
    (step x s op env).1.flash.counter = some c ∧ ∃ c0, s.flash.counter = some c0 ∧ c = c0 + 1 := by
  obtain ⟨c0, h1, h2, h3⟩ := step_counter x h
  exact ⟨h3, c0, h1, h2⟩

theorem succ_lt {c : UInt32} (h : c.toNat + 1 < 2 ^ 32) : (c + 1).toNat = c.toNat + 1 := by
  rw [UInt32.toNat_add]
  show (c.toNat + 1) % 2 ^ 32 = _
  exact Nat.mod_eq_of_lt h

/-- Every signature of a history - by CTAP2 or U2F, with any credential - carries a larger counter than all
signatures before it and than the counter at the start, through power cuts anywhere and power cycles.
There must be no reset, no file-system error at power-up, and no 2^32 operations. -/
theorem C60_strictly_increasing (s : St) (c0 : UInt32) (hc : s.flash.counter = some c0) (hl : s.flash.lb.isSome = true)
    (ops : List (Op × Env)) (hops : ∀ o ∈ ops, o.1.resets = false ∧ (o.1.powers = true → noFail o.2))
    (hn : c0.toNat + ops.length < 2 ^ 32) :
    ((run x s ops).2.filterMap Out.counter).Pairwise (· < ·) ∧ ∀ c ∈ (run x s ops).2.filterMap Out.counter, c0 < c := by
  induction ops generalizing s c0 with
  | nil => exact ⟨List.Pairwise.nil, fun _ h => by cases h⟩
  | cons o ops ih =>
    obtain ⟨op, env⟩ := o
    have ho := hops (op, env) (List.mem_cons_self ..)
    have hst := C60_step (x := x) s op env ho.1 hl ho.2
    have hlen : c0.toNat + ops.length + 1 < 2 ^ 32 := by
      simp only [List.length_cons] at hn
      omega
    have hops' : ∀ o ∈ ops, o.1.resets = false ∧ (o.1.powers = true → noFail o.2) :=
      fun o h => hops o (List.mem_cons_of_mem _ h)
    show (((step x s op env).2 :: (run x (step x s op env).1 ops).2).filterMap Out.counter).Pairwise (· < ·) ∧
      ∀ c ∈ ((step x s op env).2 :: (run x (step x s op env).1 ops).2).filterMap Out.counter, c0 < c
    have hsucc : (c0 + 1).toNat = c0.toNat + 1 := succ_lt (by omega)
    have hlt : c0 < c0 + 1 := by
      rw [UInt32.lt_iff_toNat_lt, hsucc]
      omega
    cases hcnt : (step x s op env).2.counter with
    | some c =>
      obtain ⟨h1, c1, h2, h3⟩ := C60_persisted s op env c hcnt
      rw [hc] at h2
      cases h2
      have := ih (step x s op env).1 c h1 hst.1 hops' (by rw [h3, hsucc]; omega)
      rw [List.filterMap_cons_some hcnt]
      refine ⟨List.pairwise_cons.mpr ⟨this.2, this.1⟩, ?_⟩
      intro d hd
      rw [List.mem_cons] at hd
      rcases hd with rfl | hd
      · rw [h3]; exact hlt
      · refine UInt32.lt_trans ?_ (this.2 d hd)
        rw [h3]; exact hlt
    | none =>
      rw [List.filterMap_cons_none hcnt]
      rcases hst.2 with h | ⟨c1, h1, h2⟩
      · exact ih (step x s op env).1 c0 (h.trans hc) hst.1 hops' (by omega)
      · rw [hc] at h1
        cases h1
        have := ih (step x s op env).1 (c0 + 1) h2 hst.1 hops' (by rw [hsucc]; omega)
        exact ⟨this.1, fun d hd => UInt32.lt_trans hlt (this.2 d hd)⟩

/-- No token ever stands for user presence. -/
theorem present_step (hx : x.Sized) (s : St) (op : Op) (env : Env) (h : s.ram.tok.presentFlag = false) :
    (step x s op env).1.ram.tok.presentFlag = false := by
  cases hu : (step x s op env).1.ram.tok.inUse with
  | false => unfold Tok.presentFlag; rw [hu]; rfl
  | true =>
    rcases tok_step hx s op env hu with ⟨h1, now, _, h2⟩ | ⟨i, q, _, _, _, _, ht⟩
    · unfold Tok.presentFlag at h ⊢
      rw [h1] at h
      rw [hu]
      cases hup : (step x s op env).1.ram.tok.up with
      | false => rfl
      | true => rw [h2.up hup] at h; cases h
    · rw [ht]
      rfl

theorem present_run (hx : x.Sized) (s : St) (h : s.ram.tok.presentFlag = false) (ops : List (Op × Env)) :
    (run x s ops).1.ram.tok.presentFlag = false := by
  induction ops generalizing s with
  | nil => exact h
  | cons o ops ih => exact ih _ (present_step hx s o.1 o.2 h)

theorem aged_present {i : In} {r : Ram} (h : r.tok.presentFlag = false) : (aged i r).tok.presentFlag = false := by
  show (r.tok.observe i.tick).presentFlag = false
  cases hu : (r.tok.observe i.tick).inUse with
  | false => unfold Tok.presentFlag; rw [hu]; rfl
  | true => rw [(observe_inUse hu).1]; exact h

/-- A credential is registered only if the user was present for that very command. -/
theorem C75_registration (hx : x.Sized) (s : St) (hs : s.ram.tok.presentFlag = false) (ops : List (Op × Env))
    (i : In) (q : McReq) (env : Env) (m : McResp)
    (h : (step x (run x s ops).1 (.cbor i (.mc (.ok q))) env).2 = .resp (.mc m)) : i.present ∧ m.ad.up = true := by
  obtain ⟨r', ⟨m', hm, hd⟩, _⟩ := resp_of x i (q := .mc (.ok q)) (wp_makeCredential x i q) h
  cases hm
  refine ⟨?_, hd.up⟩
  rcases hd.present with h1 | h1
  · rw [aged_present (present_run hx s hs ops)] at h1
    cases h1
  · exact h1

/-- getAssertion claims user presence exactly if the request does not decline it, and only if the user was
present for that very command. -/
theorem C75_assertion (hx : x.Sized) (s : St) (hs : s.ram.tok.presentFlag = false) (ops : List (Op × Env))
    (i : In) (q : GaReq) (env : Env) (g : GaResp)
    (h : (step x (run x s ops).1 (.cbor i (.ga (.ok q))) env).2 = .resp (.ga g)) :
    (g.ad.up = true ↔ q.up ≠ .no) ∧ (g.ad.up = true → i.present) := by
  obtain ⟨q', g', hq, hg, hb⟩ := ga_resp x i h
  cases hq
  cases hg
  obtain ⟨d, f1, r1, _, h2, h3, h4, h5, _, _, r', hd, _⟩ := hb.done
  constructor
  · rw [hd.upIs, h2, h3, h4]
    by_cases hq : q.up = .no <;> simp [hq]
  · intro hup
    rcases hd.up hup with ⟨_, _, h6 | h6⟩ | h6
    · rw [h5, aged_present (present_run hx s hs ops)] at h6
      cases h6
    · exact h6
    · rw [h2] at h6
      cases h6

/-- getNextAssertion claims user presence only if the user was present for the getAssertion command that it
continues. -/
theorem C75_next_assertion (hx : x.Sized) (s : St) (hs : s.ram.tok.presentFlag = false) (hl : ¬ s.ram.going)
    (ops : List (Op × Env)) (hu : ∀ u, .ub u ∉ (run x s ops).2) (i : In) (env : Env) (g : GaResp)
    (h : (step x (run x s ops).1 (.cbor i .gna) env).2 = .resp (.ga g)) (hup : g.ad.up = true) :
    ∃ pre j q env' g' post, ops = pre ++ (.cbor j (.ga (.ok q)), env') :: post ∧
      (step x (run x s pre).1 (.cbor j (.ga (.ok q))) env').2 = .resp (.ga g') ∧ g'.ad.up = true ∧ j.present ∧
      g.ad.rp = q.rpHash ∧ g.cdh = q.cdh := by
  obtain ⟨g0, d, r', hg, h1, h2, h3, hd, h5⟩ := gna_resp x i h
  cases hg
  obtain ⟨pre, j, q, env', g', post, e, ho, hc⟩ := session x hl ops hu h1
  obtain ⟨q', g'', hq, hg, hb⟩ := ga_resp x j ho
  cases hq
  cases hg
  obtain ⟨d', f1, r1, _, _, hctr, hreq, _, _, _, r2, hd2, hr2⟩ := hb.done
  obtain ⟨hs1, hq1⟩ := hd2.ramReq
  obtain ⟨hs2, hq2⟩ := hc.req
  have hreq' : (run x s ops).1.ram.ga.req = { q with hs := hs2 } := by
    rw [hq2, hr2]
    show { r2.ga.req with hs := hs2 } = _
    rw [hq1, hreq]
  have hup' : g'.ad.up = true := by
    have h0 : (run x s ops).1.ram.ga.up = true := by
      rcases hd.up hup with ⟨h6, _⟩ | h6
      · exfalso
        have h6 : (run x s ops).1.ram.ga.ctr = 0 := h6
        have := hc.ctr
        have := (begun_named x j ho).1
        omega
      · exact h6
    have := hc.up h0
    rw [hr2] at this
    rw [← hd2.ramUp]
    exact this
  refine ⟨pre, j, q, env', g', post, e, ho, hup', (C75_assertion hx s hs pre j q env' g' ho).2 hup', ?_, ?_⟩
  · rw [hd.rp]
    show (run x s ops).1.ram.ga.req.rpHash = _
    rw [hreq']
  · rw [hd.cdh]
    show (run x s ops).1.ram.ga.req.cdh = _
    rw [hreq']

/-- U2F registers and signs only if the user touched the device, or over NFC. -/
theorem C75_u2f (s : St) (i : In) (q : UReq) (env : Env) (a : UResp) (h : (step x s (.u2f i q) env).2 = .u2f a) :
    i.nfc = true ∨ i.touch = true := by
  cases q with
  | register chal app =>
    refine u2f_resp x i (Q := fun _ _ _ => i.nfc = true ∨ i.touch = true) ?_ h
    unfold u2f uTouch
    apply wp_bind
    apply wp_failIf
    · intro _; trivial
    intro h4
    refine wp_mono (wp_true _) ?_ (fun _ _ _ _ => trivial) (fun _ _ _ => trivial)
    intros
    revert h4
    cases i.nfc <;> cases i.touch <;> simp
  | authenticate chal app kh check =>
    obtain ⟨_, _, _, _, _, _, _, h1, _⟩ := u2f_resp x i (wp_u2fAuth x i chal app kh check) h
    exact h1

/-- What holds of C59: U2F signs only with a credential that this device made for the application named in
the command, with the key of that credential, the signature counter plus one, and after a touch.  (Missing:
that the protection level of the credential allows it; `C59_refuted`.) -/
theorem C59_own_credential_partial (s : St) (i : In) (chal app kh : Bytes) (check : Bool) (env : Env) (a : UResp)
    (h : (step x s (.u2f i (.authenticate chal app kh check)) env).2 = .u2f a) :
    ∃ c k, s.flash.counter = some c ∧ rdCert (·.kh) s.flash = some k ∧
      a = .signed (c + 1) (khPri x k (Cid.nonce kh)) app chal ∧ Authentic x k kh ∧ app = Cid.rp kh ∧
      (i.nfc = true ∨ i.touch = true) ∧ check = false := by
  obtain ⟨c, k, h1, h2, h3, h4, h5, h6, h7, _⟩ := u2f_resp x i (wp_u2fAuth x i chal app kh check) h
  exact ⟨c, k, by rw [Flash.counter, rdCert_ctr] at *; exact h1, h2, h3, h4, h5, h6, h7⟩

section
open Toy

/-- A credential for `rpA` that requires user verification. -/
def guarded : St := (run ext withPin1 (hist [(25000, getToken pin1 0x03 none), (26000, mc rpA user1 .yes 3 (some (auth cdh)))])).1
/-- Its identifier. -/
def guardedCid : Bytes := ((rdRecs guarded.flash).getD []).map (·.cid) |>.getD 0 []

/-- C59 is false: a credential that requires user verification, which getAssertion refuses to use without
it, with and without naming the credential, signs through U2F. -/
theorem C59_refuted :
    Cid.cp guardedCid = 3 ∧
    (run ext guarded [(.cbor (env 60000) (ga rpA [] .absent none), fine), (.cbor (env 60000) (ga rpA [guardedCid] .absent none), fine),
      (.u2f (env 60000) (.authenticate cdh rpA guardedCid false), fine)]).2 =
    [.err Code.noCredentials, .err Code.noCredentials,
      .u2f (.signed 2 (khPri ext (List.replicate 32 0xCC) (Cid.nonce guardedCid)) rpA cdh)] := by
  decide +kernel

/-- With user verification, getAssertion uses it (C58 is not vacuous), and so does U2F: one counter for
both (C60). -/
example : ((run ext guarded [(.u2f (env 60000) (.authenticate cdh rpA guardedCid false), fine),
      (.cbor (env 60000) (getToken pin1 0x02 none), fine), (.cbor (env 60000) (ga rpA [] .absent (some (auth cdh))), fine),
      (.powerOn (env 0), cutAt 0), (.powerOn (env 0), fine),
      (.u2f (env 60000) (.authenticate cdh rpA guardedCid false), fine)]).2.filterMap Out.counter) = [2, 3, 4] ∧
    guarded.flash.counter = some 1 ∧ guarded.flash.lb.isSome = true ∧ guarded.ram.tok.presentFlag = false := by
  decide +kernel

/-- A power cut after the counter was written loses the number, but never repeats it. -/
example : ((run ext guarded [(.u2f (env 60000) (.authenticate cdh rpA guardedCid false), cutAt 1),
      (.powerOn (env 0), fine), (.u2f (env 60000) (.authenticate cdh rpA guardedCid false), cutAt 2),
      (.powerOn (env 0), fine), (.u2f (env 60000) (.authenticate cdh rpA guardedCid false), fine)]).2.filterMap Out.counter).length = 1 := by
  decide +kernel
end
end Verif.Ctap
