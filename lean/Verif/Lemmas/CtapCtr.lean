import Verif.Lemmas.CtapSession
/-
The signature counter: every command leaves it alone or adds one to it.
-/
namespace Verif.Ctap
open Cmd

/-- The signature counter is the same, and the applet stays installed. -/
structure Fix (f : Flash) (r : Ram) (f' : Flash) (r' : Ram) : Prop where
  ctr : rdCert (·.ctr) f' = rdCert (·.ctr) f
  lb : f.lb.isSome = true → f'.lb.isSome = true
instance : Pre Fix where
  refl _ _ := ⟨rfl, id⟩
  trans _ _ _ _ _ _ a b := ⟨b.ctr.trans a.ctr, fun h => b.lb (a.lb h)⟩

/-- At most one is added to the signature counter. -/
structure Bump (f : Flash) (f' : Flash) : Prop where
  ctr : rdCert (·.ctr) f' = rdCert (·.ctr) f ∨
    ∃ c, rdCert (·.ctr) f = some c ∧ rdCert (·.ctr) f' = some (c + 1)
  lb : f.lb.isSome = true → f'.lb.isSome = true

theorem Fix.bump {f f' : Flash} {r r' : Ram} (h : Fix f r f' r') : Bump f f' := ⟨Or.inl h.ctr, h.lb⟩
theorem Fix.bumpL {f f1 f' : Flash} {r r' : Ram} (h : Fix f r f1 r') (b : Bump f1 f') : Bump f f' := by
  refine ⟨?_, fun l => b.lb (h.lb l)⟩
  rw [← h.ctr]
  exact b.ctr
theorem Fix.bumpR {f f1 f' : Flash} {r r' : Ram} (b : Bump f f1) (h : Fix f1 r f' r') : Bump f f' := by
  refine ⟨?_, fun l => h.lb (b.lb l)⟩
  rw [h.ctr]
  exact b.ctr
theorem Stored.fix {f f' : Flash} {r r' : Ram} (h : Stored f r f' r') : Fix f r f' r' := by
  refine ⟨?_, ?_⟩
  · unfold rdCert; rw [h.cert]
  · rw [h.lb]; exact id
theorem Fix.upd {g : Cert → Cert} (hg : ∀ c, (g c).ctr = c.ctr) {f f' : Flash} {r : Ram}
    (h : updCert g f = some f') : Fix f r f' r := by
  have := rdCert_upd hg h
  refine ⟨this.1, ?_⟩
  rw [this.2.2.1]; exact id

/-- At most one is added to the counter, whatever happens. -/
def One {α : Type} (m : M α) : Prop :=
  ∀ A f r, wp A m (fun _ f' _ => Bump f f') (fun _ f' _ => Bump f f') (fun f' _ => Bump f f') f r

namespace One
variable {α β : Type}
theorem ofRel {m : M α} (h : Rel Fix m) : One m := fun A f r =>
  wp_mono (h A f r) (fun _ _ _ h => h.bump) (fun _ _ _ h => h.bump) (fun _ _ h => h.bump)
theorem left {m : M α} {k : α → M β} (h : Rel Fix m) (hk : ∀ a, One (k a)) : One (m >>= k) := by
  intro A f r
  apply wp_bind
  refine wp_mono (h A f r) ?_ (fun _ _ _ h => h.bump) (fun _ _ h => h.bump)
  intro a f1 r1 h1
  exact wp_mono (hk a A f1 r1) (fun _ _ _ h => h1.bumpL h) (fun _ _ _ h => h1.bumpL h) (fun _ _ h => h1.bumpL h)
theorem right {m : M α} {k : α → M β} (h : One m) (hk : ∀ a, Rel Fix (k a)) : One (m >>= k) := by
  intro A f r
  apply wp_bind
  refine wp_mono (h A f r) ?_ (fun _ _ _ h => h) (fun _ _ h => h)
  intro a f1 r1 h1
  exact wp_mono (hk a A f1 r1) (fun _ _ _ h => h.bumpR h1) (fun _ _ _ h => h.bumpR h1) (fun _ _ h => h.bumpR h1)
theorem ite {c : Prop} [Decidable c] {m k : M α} (h : One m) (h' : One k) : One (if c then m else k) := by
  split
  · exact h
  · exact h'
theorem lift {m : M α} (h : One m) : One (Cmd.lift m.run : M (Except Err α)) := fun A f r => wp_catch (h A f r)
end One

open Lean Elab Tactic in
/-- Reduces `let`s at the head of the command of a counter goal. -/
elab "ozeta" : tactic => do
  let g ← getMainGoal
  let t ← instantiateMVars (← g.getType)
  let args := t.getAppArgs
  let some m := args[1]? | throwError "no command"
  let m' := headNorm m
  if m' == m then throwError "nothing to do"
  replaceMainGoal [← g.change (mkAppN t.getAppFn (args.set! 1 m'))]

macro "fixes" : tactic => `(tactic| first
  | (intro _ _ _ h; exact (Stored.updRec' h).fix)
  | (intro _ _ _ h; exact (Stored.updMeta' h).fix)
  | (intro _ _ _ h; exact (Stored.updAttr' h).fix)
  | (intro _ _ _ h; exact Fix.upd (by intro _; rfl) h)
  | (intro _ _; exact ⟨rfl, id⟩))

section
variable (x : Ext) (i : In)

theorem Same.fix {f f' : Flash} {r r' : Ram} (h : Same f r f' r') : Fix f r f' r' := by
  obtain ⟨rfl, rfl⟩ := h
  exact ⟨rfl, id⟩
theorem fx_same {α : Type} {m : M α} (h : Rel Same m) : Rel Fix m := h.mono fun _ _ _ _ h => h.fix
theorem fx_stored {α : Type} {m : M α} (h : Rel Stored m) : Rel Fix m := h.mono fun _ _ _ _ h => h.fix

theorem fx_verifyToken (msg sig : Bytes) (proto : Nat) : Rel Fix (verifyToken x i msg sig proto) := by
  unfold verifyToken
  rels (fixes)
theorem fx_mcAuth (q : McReq) : Rel Fix (mcAuth x i q) := by
  unfold mcAuth
  rels (first | exact fx_same same_hasPin | exact fx_verifyToken x i _ _ _ | fixes)
theorem fx_gaCheck (q : GaReq) : Rel Fix (gaCheck x i q) := by
  unfold gaCheck
  rels (first | exact fx_same same_hasPin | exact fx_same (same_emptyAuth _ _) | exact fx_verifyToken x i _ _ _ | fixes)
theorem fx_takePresence (a : Option Bytes) : Rel Fix (takePresence i a) := by
  unfold takePresence
  rels (first | exact fx_same (same_wait _ _) | fixes)
theorem fx_gaAllow (q : GaReq) (uv : Bool) (l : List Bytes) (dc : Dc) : Rel Fix (gaAllow x q uv l dc) := by
  induction l generalizing dc with
  | nil => exact Rel.fail _
  | cons c l ih =>
    unfold gaAllow
    rels (first | exact ih _ | exact fx_same (same_verifyKh x _))
theorem fx_gaSelect : Rel Fix (gaSelect x) := by
  unfold gaSelect
  rels (first | exact fx_gaAllow x _ _ _ _ | exact fx_same (same_verifyKh x _) | fixes)
theorem fx_gaHmac (cid : Bytes) (h : HmacSecret) : Rel Fix (gaHmac x i cid h) := by
  unfold gaHmac
  rels (fixes)

theorem one_increase : One increaseCounter := by
  intro A f r
  unfold increaseCounter
  apply wp_bind
  apply wp_rdOr
  · intro c hc
    apply wp_bind
    apply wp_wrOr
    · intro f' hf
      apply wp_pure
      unfold updCert at hf
      cases hce : f.cert with
      | none => rw [hce] at hf; cases hf
      | some e =>
        rw [hce] at hf
        cases hf
        exact ⟨Or.inr ⟨c, hc, rfl⟩, id⟩
    all_goals (intros; exact ⟨Or.inl rfl, id⟩)
  all_goals (intros; exact ⟨Or.inl rfl, id⟩)
theorem one_makeAuthData (rp : Bytes) (fl : Byte) (alg : UInt32) (dc cp : Byte) : One (makeAuthData x i rp fl alg dc cp) := by
  unfold makeAuthData
  apply One.right one_increase
  intro c
  rels (fixes)
theorem one_mcFinish (q : McReq) (uv : Bool) : One (mcFinish x i q uv) := by
  unfold mcFinish
  apply One.left (Rel.failIf _ _)
  intro _
  ozeta
  apply One.right (one_makeAuthData x i _ _ _ _ _)
  intro _
  rels (first | exact fx_stored (st_mcStore _ _) | exact fx_same (same_largeBlobKey x _) | fixes)
theorem one_makeCredential (q : Except Byte McReq) : One (makeCredential x i q) := by
  unfold makeCredential
  cases q with
  | error c => exact One.ofRel (Rel.fail _)
  | ok q =>
    simp only
    apply One.left (fx_stored st_consistency); intro _
    apply One.left (fx_same (same_emptyAuth _ _)); intro _
    apply One.left (Rel.failIf _ _); intro _
    apply One.left (Rel.failIf _ _); intro _
    apply One.left (Rel.failIf _ _); intro _
    apply One.left (fx_same same_hasPin); intro _
    apply One.left (Rel.failIf _ _); intro _
    have rest : ∀ uv, One (do mcExclude x i q uv q.exclude i.junk; takePresence i q.pinAuth; mcFinish x i q uv) := fun uv =>
      One.left (fx_same (same_mcExclude x i _ _ _ _)) fun _ => One.left (fx_takePresence i _) fun _ => one_mcFinish x i q _
    apply One.ite
    · exact One.left (Rel.pure _) rest
    · exact One.left (fx_mcAuth x i q) rest
theorem one_gaRest (q : GaReq) (d : Dc) (key : Bytes) (first : Bool) : One (gaRest x i q d key first) := by
  unfold gaRest
  apply One.left Rel.get
  intro r
  apply One.left (Rel.failIf _ _); intro _
  ozeta
  cases q.hs with
  | none =>
    apply One.left (Rel.pure _); intro _
    apply One.right (one_makeAuthData x i _ _ _ _ _); intro _
    rels (first | exact fx_same (same_largeBlobKey x _) | fixes)
  | some h =>
    apply One.left (fx_gaHmac x i _ _); intro _
    apply One.left (Rel.pure _); intro _
    apply One.right (one_makeAuthData x i _ _ _ _ _); intro _
    rels (first | exact fx_same (same_largeBlobKey x _) | fixes)
theorem one_gaFinish : One (gaFinish x i) := by
  unfold gaFinish
  apply One.left (fx_gaSelect x)
  rintro ⟨d, key⟩
  apply One.left Rel.get
  intro r
  ozeta
  apply One.ite
  · exact One.left (fx_takePresence i _) (fun _ => One.left (Rel.mod fun _ _ => ⟨rfl, id⟩) fun _ => one_gaRest x i r.ga.req d key (r.ga.ctr == 0))
  · exact one_gaRest x i r.ga.req d key (r.ga.ctr == 0)
theorem one_getAssertion (q : Except Byte GaReq) : One (getAssertion x i q) := by
  unfold getAssertion
  apply One.left
  · apply Rel.mod; fixes
  intro _
  apply One.left (fx_stored st_consistency); intro _
  cases q with
  | error c => exact One.ofRel (Rel.fail _)
  | ok q =>
    simp only
    apply One.left
    · apply Rel.mod; fixes
    intro _
    apply One.left (fx_gaCheck x i q); intro _
    exact one_gaFinish x i
theorem one_getNext : One (getNextAssertion x i) := by
  unfold getNextAssertion
  apply One.left Rel.get
  intro r
  apply One.left (Rel.failIf _ _); intro _
  apply One.left (Rel.failIf _ _); intro _
  apply One.left (Rel.failIf _ _); intro _
  exact one_gaFinish x i
theorem one_u2f (q : UReq) : One (u2f x i q) := by
  cases q with
  | register chal app =>
    unfold u2f uTouch
    apply One.ofRel
    rels (fixes)
  | authenticate chal app kh check =>
    unfold u2f uTouch
    apply One.left (Rel.failIf _ _); intro _
    apply One.left (Rel.rdOr _ _); intro _
    apply One.left (Rel.failIf _ _); intro _
    apply One.left (Rel.failIf _ _); intro _
    apply One.left (Rel.failIf _ _); intro _
    apply One.right
    · exact One.lift (one_makeAuthData x i _ _ _ _ _)
    intro a
    cases a <;> rels (fixes)
theorem fx_clientPin (q : Except Byte CpReq) : Rel Fix (clientPin x i q) := by
  unfold clientPin cpSetPin cpChangePin cpGetToken pinGate pinCompare storeNewPin setPin setPinRetries pinRetries
    verifyPinHash shared decryptOr
  rels (first | exact fx_same same_hasPin | fixes)
theorem fx_credMgmt (q : Except Byte CmReq) : Rel Fix (credMgmt x i q) := by
  unfold credMgmt cmAuth cmRpsBegin cmNextRp cmCredsBegin cmNextCred cmDelete cmUpdate cmFind cmCred metaCount rdAt
  rels (first | exact fx_stored st_consistency | exact fx_verifyToken x i _ _ _ | exact fx_same (same_verifyKh x _) | exact fx_same (same_largeBlobKey x _) | fixes)
theorem fx_largeBlobs (q : Except Byte LbReq) : Rel Fix (largeBlobs x i q) := by
  unfold largeBlobs lbSet lbAuth
  rels (first | exact fx_same same_hasPin | exact fx_verifyToken x i _ _ _ | fixes | (intro f r f' h; cases h; exact ⟨rfl, id⟩) | (intro f r f' h; cases hl : f.lbt with | none => (rw [hl] at h; cases h) | some b => (rw [hl] at h; cases h; exact ⟨rfl, fun _ => rfl⟩)))

theorem one_handle {q : Req} (hq : q ≠ .reset) : One (handle x i q) := by
  cases q with
  | mc q => exact one_makeCredential x i q
  | ga q => exact one_getAssertion x i q
  | gna => exact one_getNext x i
  | info => exact One.ofRel (Rel.bind (fx_same same_hasPin) fun _ => Rel.pure _)
  | cp q => exact One.ofRel (fx_clientPin x i q)
  | reset => exact absurd rfl hq
  | cm q => exact One.ofRel (fx_credMgmt x i q)
  | sel => exact One.ofRel (Rel.bind (fx_same (same_wait _ _)) fun _ => Rel.pure _)
  | lb q => exact One.ofRel (fx_largeBlobs x i q)
  | other c => exact One.ofRel (Rel.fail _)

theorem one_process {q : Req} (hq : q ≠ .reset) : One (process x i q) := by
  unfold process
  apply One.left
  · apply Rel.mod; fixes
  intro _
  apply One.right
  · exact One.lift (one_handle x i hq)
  intro a
  rels (fixes)

theorem one_exec {α : Type} {m : M α} (h : One m) {g : α → Out} {s : St} {env : Env} : Bump s.flash (exec m g s env).1.flash := by
  refine exec_wp (P := fun p : St × Out => Bump s.flash p.1.flash) (A := fun _ => True) (fun _ => trivial) (h _ _ _) ?_ ?_ ?_ ?_
  all_goals (intros; assumption)

theorem fx_installKey (k : Bytes) : Rel Fix (installKeyM k) := by
  unfold installKeyM
  rels (fixes)
theorem fx_writeSm2 (k : Sm2) : Rel Fix (writeSm2M k) := by
  unfold writeSm2M
  rels (fixes)
theorem fx_installCert (k : Bytes) : Rel Fix (installCertM k) := by
  unfold installCertM
  apply Rel.wrOr
  intro f r f' h
  cases h
  refine ⟨?_, id⟩
  unfold rdCert
  cases hc : f.cert <;> rfl

/-- Every operation but a reset adds at most one to the counter. -/
theorem step_bump {s : St} {op : Op} {env : Env} (hr : op.resets = false)
    (hp : op.powers = true → (step x s op env).1.flash = s.flash) : Bump s.flash (step x s op env).1.flash := by
  cases op with
  | powerOn i => rw [hp rfl]; exact ⟨Or.inl rfl, id⟩
  | cbor i q =>
    refine one_exec (one_process x i ?_)
    rintro rfl
    cases hr
  | u2f i q => exact one_exec (one_u2f x i q)
  | adminReset i => cases hr
  | installKey k => exact one_exec (One.ofRel (fx_installKey k))
  | installCert k => exact one_exec (One.ofRel (fx_installCert k))
  | writeSm2 k => exact one_exec (One.ofRel (fx_writeSm2 k))

theorem rdCert_ctr (f : Flash) : rdCert (·.ctr) f = f.counter := rfl

theorem mapped_ctr {f : Flash} {c c' : UInt32} (h : rdCert (·.ctr) f = some c) :
    (f.cert.map fun e => { e with ctr := some c' }).bind (·.ctr) = some c' := by
  cases hf : f.cert with
  | none => unfold rdCert at h; rw [hf] at h; cases h
  | some e => rfl

/-- A response to a U2F authentication: the user was there, the key handle is the device's, and the
counter has been increased. -/
theorem wp_u2fAuth {A : Fault → Prop} {f : Flash} {r : Ram} (chal app kh : Bytes) (check : Bool) :
    wp A (u2f x i (.authenticate chal app kh check)) (fun a f' r' => ∃ c k, rdCert (·.ctr) f = some c ∧
        rdCert (·.kh) f = some k ∧ a = .signed (c + 1) (khPri x k (Cid.nonce kh)) app chal ∧ Authentic x k kh ∧
        app = Cid.rp kh ∧ (i.nfc = true ∨ i.touch = true) ∧ check = false ∧
        f' = { f with cert := f.cert.map fun e => { e with ctr := some (c + 1) } })
      (fun _ _ _ => True) (fun _ _ => True) f r := by
  unfold u2f uTouch
  apply wp_bind
  apply wp_failIf
  · intro _; trivial
  intro h1
  apply wp_bind
  apply wp_rdOr
  · intro k hk
    apply wp_bind
    apply wp_failIf
    · intro _; trivial
    intro h2
    apply wp_bind
    apply wp_failIf
    · intro _; trivial
    intro h3
    apply wp_bind
    apply wp_failIf
    · intro _; trivial
    intro h4
    apply wp_bind
    apply wp_catch
    refine wp_mono (wp_authData x i (Q := fun ad f' r' => ∃ c, rdCert (·.ctr) f = some c ∧ ad.ctr = c + 1 ∧
      f' = { f with cert := f.cert.map fun e => { e with ctr := some (c + 1) } }) ?_) ?_ ?_ (fun _ _ _ => trivial)
    · intro c f' hc hf
      exact ⟨fun h => absurd (by decide) h, fun _ => ⟨c, hc, rfl, updCert_map hf⟩⟩
    · rintro ad f' r' ⟨c, hc, had, hf⟩
      simp only [bne_iff_ne, ne_eq, Decidable.not_not, Bool.not_eq_false, Bool.not_eq_true', bne_eq_false_iff_eq] at h1 h2
      apply wp_pure
      refine ⟨c, k, hc, hk, ?_, ?_, h1, ?_, by simpa using h3, hf⟩
      · rw [had]
      · show Cid.tag kh = khTag x k (Cid.nonce kh) (Cid.rp kh)
        rw [← h1]
        exact h2.symm
      · revert h4
        cases i.nfc <;> cases i.touch <;> simp
    · intro e f' r' _
      exact wp_fail trivial
  all_goals (intros; trivial)

theorem u2f_resp {s : St} {q : UReq} {env : Env} {a : UResp} {Q : UResp → Flash → Ram → Prop}
    (hw : wp (fun _ => True) (u2f x i q) Q (fun _ _ _ => True) (fun _ _ => True) s.flash s.ram)
    (h : (step x s (.u2f i q) env).2 = .u2f a) :
    Q a (step x s (.u2f i q) env).1.flash (step x s (.u2f i q) env).1.ram := by
  revert h
  unfold step
  refine exec_wp (P := fun p : St × Out => p.2 = .u2f a → Q a p.1.flash p.1.ram) (A := fun _ => True) (fun _ => trivial) hw ?_ ?_ ?_ ?_
  · intro b f r hq h
    cases h
    exact hq
  all_goals (intros; contradiction)

/-- What the command gives, if it succeeds, satisfies `P`. -/
def Gives {α : Type} (P : α → Prop) (m : M α) : Prop :=
  ∀ f r, wp (fun _ => True) m (fun a _ _ => P a) (fun _ _ _ => True) (fun _ _ => True) f r

namespace Gives
variable {α β : Type} {P : β → Prop}
theorem pure {b : β} (h : P b) : Gives P (Pure.pure b : M β) := fun _ _ => wp_pure h
theorem throw {e : Err} : Gives P (throw e : M β) := fun _ _ => wp_throw trivial
theorem fail {c : Byte} : Gives P (fail c : M β) := fun _ _ => wp_fail trivial
theorem bind {m : M α} {k : α → M β} (h : ∀ a, Gives P (k a)) : Gives P (m >>= k) := fun f r =>
  wp_bind (wp_mono (wp_true m) (fun a f r _ => h a f r) (fun _ _ _ _ => trivial) (fun _ _ _ => trivial))
theorem ite {c : Prop} [Decidable c] {m k : M β} (h : Gives P m) (h' : Gives P k) : Gives P (if c then m else k) := by
  split
  · exact h
  · exact h'
end Gives

open Lean Elab Tactic in
/-- Reduces `let`s at the head of the command. -/
elab "gzeta" : tactic => do
  let g ← getMainGoal
  let t ← instantiateMVars (← g.getType)
  let args := t.getAppArgs
  let some m := args[2]? | throwError "no command"
  let m' := headNorm m
  if m' == m then throwError "nothing to do"
  replaceMainGoal [← g.change (mkAppN t.getAppFn (args.set! 2 m'))]

macro "gives" : tactic => `(tactic| repeat' (first
  | with_reducible apply Gives.fail
  | with_reducible apply Gives.throw
  | ((with_reducible apply Gives.pure) <;> exact trivial)
  | (with_reducible apply Gives.bind; intro _)
  | with_reducible apply Gives.ite
  | gzeta
  | (is_rmatch; with_reducible split)))

/-- Not a signature. -/
def Resp.plain : Resp → Prop
  | .mc _ => False
  | .ga _ => False
  | _ => True

theorem plain_handle {q : Req} (h1 : q.cmd ≠ 0x01) (h2 : q.cmd ≠ 0x02) (h3 : q.cmd ≠ 0x08) (f : Flash) (r : Ram) :
    wp (fun _ => True) (handle x i q) (fun a _ _ => a.plain) (fun _ _ _ => True) (fun _ _ => True) f r := by
  revert f r
  show Gives Resp.plain (handle x i q)
  cases q with
  | mc q => exact absurd rfl h1
  | ga q => exact absurd rfl h2
  | gna => exact absurd rfl h3
  | info =>
    show Gives Resp.plain (do let p ← hasPin; return .info p)
    gives
  | cp q =>
    show Gives Resp.plain (clientPin x i q)
    unfold clientPin cpSetPin cpChangePin cpGetToken
    gives
  | reset =>
    show Gives Resp.plain (resetData i)
    unfold resetData
    gives
  | cm q =>
    show Gives Resp.plain (credMgmt x i q)
    unfold credMgmt cmRpsBegin cmNextRp cmCredsBegin cmNextCred cmDelete cmUpdate cmCred
    gives
  | sel =>
    show Gives Resp.plain (do wait i Code.actionTimeout; return .empty)
    gives
  | lb q =>
    show Gives Resp.plain (largeBlobs x i q)
    unfold largeBlobs lbSet
    gives
  | other c => exact Gives.fail

theorem exec_out {α : Type} (m : M α) (g : α → Out) (s : St) (env : Env) :
    (∃ a, (exec m g s env).2 = g a) ∨ (exec m g s env).2 = .cut ∨ (∃ c, (exec m g s env).2 = .err c) ∨
      ∃ u, (exec m g s env).2 = .ub u := by
  unfold exec
  split
  · exact Or.inr (Or.inl rfl)
  · exact Or.inl ⟨_, rfl⟩
  · exact Or.inr (Or.inr (Or.inl ⟨_, rfl⟩))
  · exact Or.inr (Or.inr (Or.inr ⟨_, rfl⟩))

/-- Only CTAP2 commands give CTAP2 responses. -/
theorem resp_cbor {s : St} {op : Op} {env : Env} {a : Resp} (h : (step x s op env).2 = .resp a) : ∃ i q, op = .cbor i q := by
  cases op with
  | cbor i q => exact ⟨i, q, rfl⟩
  | _ =>
    exfalso
    unfold step at h
    first
      | (rcases exec_out (install _ false) (fun _ => .done) ⟨s.flash, Ram.init⟩ env with ⟨_, h'⟩ | h' | ⟨_, h'⟩ | ⟨_, h'⟩ <;> (rw [h'] at h; cases h))
      | (rcases exec_out (install _ true) (fun _ => .done) s env with ⟨_, h'⟩ | h' | ⟨_, h'⟩ | ⟨_, h'⟩ <;> (rw [h'] at h; cases h))
      | (rcases exec_out (u2f x _ _) .u2f s env with ⟨_, h'⟩ | h' | ⟨_, h'⟩ | ⟨_, h'⟩ <;> (rw [h'] at h; cases h))
      | (rcases exec_out (installKeyM _) (fun _ => .done) s env with ⟨_, h'⟩ | h' | ⟨_, h'⟩ | ⟨_, h'⟩ <;> (rw [h'] at h; cases h))
      | (rcases exec_out (installCertM _) (fun _ => .done) s env with ⟨_, h'⟩ | h' | ⟨_, h'⟩ | ⟨_, h'⟩ <;> (rw [h'] at h; cases h))
      | (rcases exec_out (writeSm2M _) (fun _ => .done) s env with ⟨_, h'⟩ | h' | ⟨_, h'⟩ | ⟨_, h'⟩ <;> (rw [h'] at h; cases h))

/-- Only U2F commands give U2F responses. -/
theorem resp_u2f {s : St} {op : Op} {env : Env} {a : UResp} (h : (step x s op env).2 = .u2f a) : ∃ i q, op = .u2f i q := by
  cases op with
  | u2f i q => exact ⟨i, q, rfl⟩
  | _ =>
    exfalso
    unfold step at h
    first
      | (rcases exec_out (install _ false) (fun _ => .done) ⟨s.flash, Ram.init⟩ env with ⟨_, h'⟩ | h' | ⟨_, h'⟩ | ⟨_, h'⟩ <;> (rw [h'] at h; cases h))
      | (rcases exec_out (install _ true) (fun _ => .done) s env with ⟨_, h'⟩ | h' | ⟨_, h'⟩ | ⟨_, h'⟩ <;> (rw [h'] at h; cases h))
      | (rcases exec_out (process x _ _) .resp s env with ⟨_, h'⟩ | h' | ⟨_, h'⟩ | ⟨_, h'⟩ <;> (rw [h'] at h; cases h))
      | (rcases exec_out (installKeyM _) (fun _ => .done) s env with ⟨_, h'⟩ | h' | ⟨_, h'⟩ | ⟨_, h'⟩ <;> (rw [h'] at h; cases h))
      | (rcases exec_out (installCertM _) (fun _ => .done) s env with ⟨_, h'⟩ | h' | ⟨_, h'⟩ | ⟨_, h'⟩ <;> (rw [h'] at h; cases h))
      | (rcases exec_out (writeSm2M _) (fun _ => .done) s env with ⟨_, h'⟩ | h' | ⟨_, h'⟩ | ⟨_, h'⟩ <;> (rw [h'] at h; cases h))

/-- A counter in an output is one more than the counter before, and is the counter on flash after. -/
theorem step_counter {s : St} {op : Op} {env : Env} {c : UInt32} (h : (step x s op env).2.counter = some c) :
    ∃ c0, s.flash.counter = some c0 ∧ c = c0 + 1 ∧ (step x s op env).1.flash.counter = some c := by
  have fromStored : ∀ {f f1 : Flash} {r r' : Ram}, Stored f r f1 r' → f1.counter = f.counter := by
    intro f f1 r r' hs
    unfold Flash.counter
    rw [hs.cert]
  cases ho : (step x s op env).2 with
  | resp a =>
    rw [ho] at h
    obtain ⟨i, q, rfl⟩ := resp_cbor x ho
    cases q with
    | mc q =>
      cases q with
      | error e =>
        exfalso
        obtain ⟨_, h, _⟩ := resp_of x i (s := s) (q := .mc (.error e)) (Q := fun _ _ _ => False) (wp_fail trivial) ho
        exact h
      | ok q =>
        obtain ⟨r', ⟨m, hm, hd⟩, _⟩ := resp_of x i (s := s) (q := .mc (.ok q)) (wp_makeCredential x i q) ho
        subst hm
        cases h
        obtain ⟨c0, h1, h2, h3⟩ := hd.ctr
        refine ⟨c0, h1, h2, ?_⟩
        unfold Flash.counter
        rw [h3, h2]
        exact mapped_ctr h1
    | ga q =>
      obtain ⟨q', g, rfl, rfl, hb⟩ := ga_resp x i ho
      cases h
      obtain ⟨d, f1, r1, h1, _, _, _, _, _, _, r', hd, _⟩ := hb.done
      obtain ⟨c0, h2, h3, h4⟩ := hd.ctr
      refine ⟨c0, ?_, h3, ?_⟩
      · rw [← fromStored h1]; exact h2
      · unfold Flash.counter
        rw [h4, h3]
        exact mapped_ctr h2
    | gna =>
      obtain ⟨g, d, r', rfl, _, _, _, hd, _⟩ := gna_resp x i ho
      cases h
      obtain ⟨c0, h2, h3, h4⟩ := hd.ctr
      refine ⟨c0, h2, h3, ?_⟩
      unfold Flash.counter
      rw [h4, h3]
      exact mapped_ctr h2
    | other c => exact absurd ho (other_not_resp x i)
    | _ =>
      exfalso
      obtain ⟨_, hpl, _⟩ := resp_of x i (s := s) (plain_handle x i (by simp [Req.cmd]) (by simp [Req.cmd]) (by simp [Req.cmd]) _ _) ho
      cases a with
      | mc m => exact hpl
      | ga g => exact hpl
      | _ => cases h
  | u2f a =>
    rw [ho] at h
    obtain ⟨i, q, rfl⟩ := resp_u2f x ho
    cases q with
    | register chal app =>
      exfalso
      have : Gives (fun a => ∃ c k, a = UResp.registered c k) (u2f x i (.register chal app)) := by
        unfold u2f uTouch
        gives
        exact Gives.pure ⟨_, _, rfl⟩
      obtain ⟨c, k, rfl⟩ := u2f_resp x i (this _ _) ho
      cases h
    | authenticate chal app kh check =>
      obtain ⟨c0, k, h1, h2, rfl, _, _, _, _, h3⟩ := u2f_resp x i (wp_u2fAuth x i chal app kh check) ho
      cases h
      refine ⟨c0, h1, rfl, ?_⟩
      unfold Flash.counter
      rw [h3]
      exact mapped_ctr h1
  | done => rw [ho] at h; cases h
  | err c => rw [ho] at h; cases h
  | ub c => rw [ho] at h; cases h
  | cut => rw [ho] at h; cases h
end
end Verif.Ctap
