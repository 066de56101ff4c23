import Verif.Props.CtapToken
/-
C54, C55: how long a token lasts.
-/
namespace Verif.Ctap
open Cmd

variable {x : Ext}

/-! ### C54 -/

/-- The deadline of the token does not move. -/
def Idle : FRel := fun _ r _ r' => r'.tok.timeout = r.tok.timeout
instance : Pre Idle where
  refl _ _ := rfl
  trans _ _ _ _ _ _ a b := b.trans a

theorem Idle.ofStored {α : Type} {m : M α} (h : Rel Stored m) : Rel Idle m := by
  intro A f r
  exact wp_mono (h A f r) (fun _ _ _ h => by rw [Idle, h.ram]) (fun _ _ _ h => by rw [Idle, h.ram]) (fun _ _ h => by rw [Idle, h.ram])

theorem clearFlags_timeout (t : Tok) : t.clearFlags.timeout = t.timeout := by
  unfold Tok.clearFlags
  split <;> rfl

macro "idle" : tactic => `(tactic| first
  | (intro _ _; exact clearFlags_timeout _)
  | (intro _ _; rfl)
  | (intro _ _ _ _; rfl)
  | (exact Idle.ofStored st_consistency)
  | (exact Idle.ofStored (st_mcStore _ _)))

section
variable (i : In)

theorem idle_wait (c : Byte) : Rel Idle (wait i c) := by
  unfold wait
  rels (idle)
theorem idle_hasPin : Rel Idle hasPin := by
  unfold hasPin
  rels (idle)
theorem idle_verifyKh (cid : Bytes) : Rel Idle (verifyKh x cid) := by
  unfold verifyKh
  rels (idle)
theorem idle_increase : Rel Idle increaseCounter := by
  unfold increaseCounter
  rels (idle)
theorem idle_makeAuthData (rp : Bytes) (fl : Byte) (alg : UInt32) (dc cp : Byte) :
    Rel Idle (makeAuthData x i rp fl alg dc cp) := by
  unfold makeAuthData
  rels (first | exact idle_increase | idle)
theorem idle_largeBlobKey (cid : Bytes) : Rel Idle (largeBlobKey x cid) := by
  unfold largeBlobKey
  rels (first | exact idle_verifyKh _ | idle)
theorem idle_emptyAuth (p : Option Bytes) : Rel Idle (emptyAuth i p) := by
  unfold emptyAuth
  rels (first | exact idle_hasPin | exact idle_wait i _ | idle)
theorem idle_takePresence (p : Option Bytes) : Rel Idle (takePresence i p) := by
  unfold takePresence
  rels (first | exact idle_wait i _ | idle)
theorem idle_mcExclude (q : McReq) (uv : Bool) (l : List Bytes) (buf : Bytes) :
    Rel Idle (mcExclude x i q uv l buf) := by
  induction l generalizing buf with
  | nil => exact Rel.pure _
  | cons d l ih =>
    unfold mcExclude
    rels (first | exact idle_verifyKh _ | exact idle_wait i _ | exact ih _ | idle)
theorem idle_mcAuth (q : McReq) (h : q.pinAuth = none) : Rel Idle (mcAuth x i q) := by
  unfold mcAuth
  rw [h]
  rels (first | exact idle_hasPin | exact idle_emptyAuth i _ | idle)
theorem idle_mcFinish (q : McReq) (uv : Bool) : Rel Idle (mcFinish x i q uv) := by
  unfold mcFinish
  rels (first | exact idle_makeAuthData i _ _ _ _ _ | exact idle_takePresence i _ | exact idle_largeBlobKey _ | exact idle_verifyKh _ | idle)
theorem idle_makeCredential (q : McReq) (h : q.pinAuth = none) : Rel Idle (makeCredential x i (.ok q)) := by
  unfold makeCredential
  rels (first | exact idle_hasPin | exact idle_takePresence i _ | exact idle_mcAuth i q h | exact idle_mcExclude i q _ _ _ | exact idle_mcFinish i q _ | exact idle_emptyAuth i _ | idle)
theorem idle_gaAllow (q : GaReq) (uv : Bool) (l : List Bytes) (dc : Dc) : Rel Idle (gaAllow x q uv l dc) := by
  induction l generalizing dc with
  | nil => exact Rel.fail _
  | cons d l ih =>
    unfold gaAllow
    rels (first | exact idle_verifyKh _ | exact ih _ | idle)
theorem idle_gaSelect : Rel Idle (gaSelect x) := by
  unfold gaSelect
  rels (first | exact idle_gaAllow _ _ _ _ | exact idle_verifyKh _ | idle)
theorem idle_gaHmac (cid : Bytes) (h : HmacSecret) : Rel Idle (gaHmac x i cid h) := by
  unfold gaHmac
  rels (first | exact idle_verifyKh _ | idle)
theorem idle_gaFinish : Rel Idle (gaFinish x i) := by
  unfold gaFinish
  rels (first | exact idle_gaSelect | exact idle_takePresence i _ | exact idle_gaHmac i _ _ | exact idle_makeAuthData i _ _ _ _ _ | exact idle_largeBlobKey _ | idle)
theorem idle_getAssertion (q : GaReq) (h : q.pinAuth = none) : Rel Idle (getAssertion x i (.ok q)) := by
  unfold getAssertion
  have : Rel Idle (gaCheck x i q) := by
    unfold gaCheck
    rw [h]
    rels (first | exact idle_emptyAuth i _ | exact idle_hasPin | idle)
  rels (first | exact this | exact idle_gaFinish i | idle)
theorem idle_getNext : Rel Idle (getNextAssertion x i) := by
  unfold getNextAssertion
  rels (first | exact idle_gaFinish i | idle)
theorem idle_u2f (q : UReq) : Rel Idle (u2f x i q) := by
  unfold u2f uTouch
  rels (first | exact idle_makeAuthData i _ _ _ _ _ | idle)
theorem idle_cmCred (b : Bool) : Rel Idle (cmCred x b) := by
  unfold cmCred
  rels (first | exact idle_verifyKh _ | exact idle_largeBlobKey _ | idle)
theorem idle_credMgmt (q : CmReq) (h : cmAuthed q.sub = false) : Rel Idle (credMgmt x i (.ok q)) := by
  unfold credMgmt
  have h1 : (q.sub == 1) = false := by
    rw [cmAuthed] at h
    simp only [Bool.or_eq_false_iff] at h
    exact h.1.1.1.1
  have h2 : (q.sub == 2) = false := by
    rw [cmAuthed] at h
    simp only [Bool.or_eq_false_iff] at h
    exact h.1.1.1.2
  have h4 : (q.sub == 4) = false := by
    rw [cmAuthed] at h
    simp only [Bool.or_eq_false_iff] at h
    exact h.1.1.2
  have h6 : (q.sub == 6) = false := by
    rw [cmAuthed] at h
    simp only [Bool.or_eq_false_iff] at h
    exact h.1.2
  have h7 : (q.sub == 7) = false := by
    rw [cmAuthed] at h
    simp only [Bool.or_eq_false_iff] at h
    exact h.2
  simp only [h, h1, h2, h4, h6, h7, Bool.false_eq_true, if_false]
  unfold cmNextRp cmNextCred
  rels (first | exact idle_cmCred _ | idle)
theorem idle_largeBlobs (q : LbReq) (h : (q.get.isNone && q.pinAuth.isSome) = false) : Rel Idle (largeBlobs x i (.ok q)) := by
  unfold largeBlobs
  simp only
  cases hg : q.get with
  | some n => rels (idle)
  | none =>
    rw [hg] at h
    have hp : q.pinAuth = none := by
      cases hp : q.pinAuth with
      | none => rfl
      | some _ => rw [hp] at h; cases h
    unfold lbSet lbAuth
    rw [hp]
    rels (first | exact idle_hasPin | idle)
theorem idle_setPin (q : CpReq) : Rel Idle (cpSetPin x q) := by
  unfold cpSetPin shared decryptOr storeNewPin setPin setPinRetries
  rels (first | exact idle_hasPin | idle)
theorem idle_changePin (q : CpReq) : Rel Idle (cpChangePin x q) := by
  unfold cpChangePin pinGate pinCompare storeNewPin shared decryptOr pinRetries verifyPinHash setPin setPinRetries
  rels (first | exact idle_hasPin | idle)
theorem idle_clientPin (q : CpReq) (h : (q.sub == 5 || q.sub == 9) = false) : Rel Idle (clientPin x i (.ok q)) := by
  unfold clientPin
  simp only [h, Bool.false_eq_true, if_false]
  rels (first | exact idle_setPin q | exact idle_changePin q | idle)

/-- Requests that do not present a token do not move its deadline. -/
theorem idle_handle (q : Req) (h : q.presents = false) : Rel Idle (handle x i q) := by
  cases q with
  | mc q =>
    cases q with
    | error c =>
      unfold handle makeCredential
      rels (idle)
    | ok q =>
      refine idle_makeCredential i q ?_
      cases hp : q.pinAuth with
      | none => rfl
      | some _ => change q.pinAuth.isSome = false at h; rw [hp] at h; cases h
  | ga q =>
    cases q with
    | error c =>
      unfold handle getAssertion
      rels (idle)
    | ok q =>
      refine idle_getAssertion i q ?_
      cases hp : q.pinAuth with
      | none => rfl
      | some _ => change q.pinAuth.isSome = false at h; rw [hp] at h; cases h
  | gna => exact idle_getNext i
  | info =>
    unfold handle
    rels (first | exact idle_hasPin | idle)
  | cp q =>
    cases q with
    | error c => exact Rel.fail _
    | ok q => exact idle_clientPin i q h
  | reset =>
    unfold handle resetData install
    rels (idle)
  | cm q =>
    cases q with
    | error c => exact Rel.fail _
    | ok q => exact idle_credMgmt i q h
  | sel =>
    unfold handle
    rels (first | exact idle_wait i _ | idle)
  | lb q =>
    cases q with
    | error c => exact Rel.fail _
    | ok q => exact idle_largeBlobs i q h
  | other c => exact Rel.fail _
end

theorem idle_step {s : St} {i : In} {q : Req} {env : Env} (h : q.presents = false)
    (hu : (step x s (.cbor i q) env).1.ram.tok.inUse = true) :
    (step x s (.cbor i q) env).1.ram.tok.timeout = s.ram.tok.timeout := by
  revert hu
  unfold step
  have : Rel Idle (process x i q) := by
    unfold process
    intro A f r
    apply wp_bind
    apply wp_mod
    have h0 : (r.tok.observe i.tick).timeout = r.tok.timeout := by
      unfold Tok.observe Tok.stop
      split
      · rfl
      · split <;> rfl
    apply wp_bind
    apply wp_catch
    refine wp_mono (idle_handle i q h A f _) ?_ ?_ ?_
    · intro a f' r' h
      apply wp_bind
      apply wp_mod
      exact wp_pure (h.trans h0)
    · intro e f' r' h
      cases e with
      | code c =>
        apply wp_bind
        apply wp_mod
        exact wp_fail (h.trans h0)
      | ub u => exact wp_throw (h.trans h0)
    · exact fun _ _ h => h.trans h0
  refine exec_wp (P := fun p : St × Out => p.1.ram.tok.inUse = true → p.1.ram.tok.timeout = s.ram.tok.timeout)
    (A := fun _ => True) (fun _ => trivial) (this _ _ _) ?_ ?_ ?_ ?_
  · exact fun _ _ _ h _ => h
  · exact fun _ _ _ h _ => h
  · exact fun _ _ _ h _ => h
  · intro _ _ _ h
    cases h

theorem other_tok {s : St} {op : Op} {env : Env} (hc : ∀ i q, op ≠ .cbor i q)
    (hu : (step x s op env).1.ram.tok.inUse = true) : (step x s op env).1.ram.tok = s.ram.tok := by
  have hoth := step_other x s op env hc
  cases op with
  | u2f i q =>
    revert hu
    unfold step
    refine exec_wp (P := fun p : St × Out => p.1.ram.tok.inUse = true → p.1.ram.tok = s.ram.tok)
      (A := fun _ => True) (fun _ => trivial) (as_u2f x i q _ _ _) ?_ ?_ ?_ ?_
    · exact fun _ _ _ h _ => by rw [h.1]
    · exact fun _ _ _ h _ => by rw [h.1]
    · exact fun _ _ _ h _ => by rw [h.1]
    · intro _ _ _ h
      cases h
  | cbor i q => exact absurd rfl (hc i q)
  | powerOn i =>
    revert hu hoth
    generalize step x s (.powerOn i) env = p
    intro h hoth
    cases hoth with
    | boot h' hr =>
      rcases hr with ⟨_, hr⟩ | hr
      · subst hr; cases h
      · simp only at h; rw [hr] at h; cases h
    | admin h1 => exact absurd rfl (h1 i)
  | adminReset i =>
    revert hu hoth
    generalize step x s (.adminReset i) env = p
    intro h hoth
    cases hoth with
    | reset h' hr =>
      rcases hr with ⟨_, hr⟩ | hr
      · subst hr; cases h
      · simp only at h; rw [hr] at h; cases h
    | admin _ h1 => exact absurd rfl (h1 i)
  | installKey k =>
    revert hu hoth
    generalize step x s (.installKey k) env = p
    intro h hoth
    cases hoth with
    | admin _ _ _ _ hr =>
      rcases hr with ⟨_, hr⟩ | hr
      · subst hr; cases h
      · simp only; rw [hr]
  | installCert k =>
    revert hu hoth
    generalize step x s (.installCert k) env = p
    intro h hoth
    cases hoth with
    | admin _ _ _ _ hr =>
      rcases hr with ⟨_, hr⟩ | hr
      · subst hr; cases h
      · simp only; rw [hr]
  | writeSm2 k =>
    revert hu hoth
    generalize step x s (.writeSm2 k) env = p
    intro h hoth
    cases hoth with
    | admin _ _ _ _ hr =>
      rcases hr with ⟨_, hr⟩ | hr
      · subst hr; cases h
      · simp only; rw [hr]

/-- The deadline of a token in use is at most 30 s after the last command that presented or requested one. -/
theorem deadline (hx : x.Sized) (s : St) (hs : s.ram.tok.inUse = false) (T : Nat) (hT : T + 30000 < 2 ^ 32)
    (ops : List (Op × Env))
    (hops : ∀ i q env, (Op.cbor i q, env) ∈ ops → q.presents = true → i.tick.toNat ≤ T ∧ i.tick'.toNat ≤ T)
    (h : (run x s ops).1.ram.tok.inUse = true) : (run x s ops).1.ram.tok.timeout.toNat ≤ T + 30000 := by
  have add : ∀ t : UInt32, t.toNat ≤ T → (t + 30000).toNat ≤ T + 30000 := by
    intro t ht
    rw [UInt32.toNat_add]
    have : (30000 : UInt32).toNat = 30000 := rfl
    rw [this, Nat.mod_eq_of_lt (by omega)]
    omega
  induction ops using snocInduction with
  | h0 => rw [show (run x s []).1 = s from rfl, hs] at h; cases h
  | h l o ih =>
    obtain ⟨op, env⟩ := o
    rw [run_snoc] at h ⊢
    have ih := ih (fun i q e hm => hops i q e (List.mem_append_left _ hm))
    by_cases hc : ∃ i q, op = .cbor i q
    · obtain ⟨i, q, rfl⟩ := hc
      rcases tok_step hx (run x s l).1 (.cbor i q) env h with ⟨h1, now, hn, h2⟩ | ⟨i', q', he, hq, hr, ho, ht⟩
      · have hn := hn i q rfl
        subst hn
        by_cases hp : q.presents = true
        · have hb := hops i q env (List.mem_append_right _ (List.mem_singleton.mpr rfl)) hp
          rcases h2.timeout with h3 | ⟨_, h3⟩
          · show (step x (run x s l).1 (.cbor i q) env).1.ram.tok.timeout.toNat ≤ _
            rw [h3]; exact ih h1
          · show (step x (run x s l).1 (.cbor i q) env).1.ram.tok.timeout.toNat ≤ _
            rw [h3]; exact add _ hb.1
        · have hp : q.presents = false := by simpa using hp
          show (step x (run x s l).1 (.cbor i q) env).1.ram.tok.timeout.toNat ≤ _
          rw [idle_step hp h]
          exact ih h1
      · cases he
        have hb := hops i _ env (List.mem_append_right _ (List.mem_singleton.mpr rfl))
          (by rcases hq with h | h <;> (unfold Req.presents; simp only [h]; rfl))
        show (step x (run x s l).1 _ env).1.ram.tok.timeout.toNat ≤ _
        rw [ht]
        exact add _ hb.2
    · show (step x (run x s l).1 op env).1.ram.tok.timeout.toNat ≤ _
      have := other_tok (fun i q h => hc ⟨i, q, h⟩) h
      rw [this] at h ⊢
      exact ih h

/-- A token that was neither used nor requested for more than 30 s (`T` bounds the times at which commands
presented or requested one) opens nothing. -/
theorem C54_expired (hx : x.Sized) (s : St) (hs : s.ram.tok.inUse = false) (T : Nat) (hT : T + 30000 < 2 ^ 32)
    (ops : List (Op × Env))
    (hops : ∀ i q env, (Op.cbor i q, env) ∈ ops → q.presents = true → i.tick.toNat ≤ T ∧ i.tick'.toNat ≤ T)
    (i : In) (hi : T + 30000 < i.tick.toNat) : NoToken x (run x s ops).1 i := by
  have key : (run x s ops).1.ram.tok.inUse = true → ¬ i.tick ≤ (run x s ops).1.ram.tok.timeout := by
    intro h h'
    have := deadline hx s hs T hT ops hops h
    have := UInt32.le_iff_toNat_le.mp h'
    omega
  constructor
  · intro q env m h
    cases hv : m.ad.uv with
    | false => rfl
    | true =>
      obtain ⟨h1, h2⟩ := mc_uv h hv
      exact absurd h2 (key h1.inUse)
  · intro q env m h
    cases hv : m.ad.uv with
    | false => rfl
    | true =>
      obtain ⟨h1, h2⟩ := ga_uv h hv
      exact absurd h2 (key h1.inUse)
  · intro q env a hq h
    obtain ⟨h1, _, h2⟩ := cm_auth hq h
    exact key h1.inUse h2
  · intro hp q env a hq h
    obtain ⟨h2, _, _, _, _, h1⟩ := lb_auth hq hp h
    exact key h1.inUse h2

section
open Toy

/-- A token for rpA, used 20 s later, and again 20 s after that: the hypotheses of `C53_registration`,
`C53_assertion` and `C53_management` hold.  A command that presents no token at 100 s does not keep it alive: at
100 s it opens nothing (`C54_expired` with `T` = 65000). -/
example :
    uvs withPin1 (histN [(25000, 0, getToken pin1 7 (some rpA)), (45000, 1, mc rpA user1 .yes 1 (some (auth cdh)))])
      = [none, some true] ∧
    uvs withPin1 (histN [(25000, 0, mc rpA user1 .no 1 none), (25000, 0, getToken pin1 7 (some rpA)),
      (25000, 0, mc rpA user1 .yes 1 (some (auth cdh))), (30000, 0, getToken pin1 7 (some rpA)),
      (45000, 1, ga rpA [] .absent (some (auth cdh)))]) = [some false, none, some true, none, some true] ∧
    (run ext withPin1 (hist [(25000, getToken pin1 4 none), (45000, cm 1 [] []), (65000, cm 1 [] []), (90000, .info),
      (100000, cm 1 [] [])])).2.map (fun o => match o with | .resp (.credsMeta a b) => some (a, b) | _ => none)
      = [none, some (0, 64), some (0, 64), none, none] ∧
    (run ext withPin1 (hist [(25000, getToken pin1 4 none), (100000, cm 1 [] [])])).2.getLast? = some (.err 0x33) := by
  decide +kernel
end

/-! ### C55 -/

/-- A token that does not stand for a verified user any more. -/
def Spent (t : Tok) : Prop := t.inUse = true → t.uv = false ∧ t.perms &&& permLbw = 0

theorem Spent.step (hx : x.Sized) {s : St} {op : Op} {env : Env} (hr : ¬ Right x s op) (h : Spent s.ram.tok) :
    Spent (step x s op env).1.ram.tok := by
  intro hu
  obtain ⟨h1, _, h3, h4, _⟩ := C53_no_gain hx s op env hu hr
  obtain ⟨h5, h6⟩ := h h1
  constructor
  · cases hv : (Ctap.step x s op env).1.ram.tok.uv with
    | false => rfl
    | true => rw [h4 hv] at h5; cases h5
  · refine Classical.byContradiction fun hn => ?_
    exact h3 _ hn h6

theorem Spent.run (hx : x.Sized) {s : St} (ops : List (Op × Env)) (hr : NeverRight x s ops) (h : Spent s.ram.tok) :
    Spent (run x s ops).1.ram.tok := by
  induction ops generalizing s with
  | nil => exact h
  | cons o l ih => exact ih hr.2 (h.step hx hr.1)

/-- What a spent token is still good for: nothing but managing credentials. -/
structure Drained (x : Ext) (s : St) : Prop where
  mc : ∀ i q env m, (step x s (.cbor i (.mc (.ok q))) env).2 = .resp (.mc m) → m.ad.uv = false
  ga : ∀ i q env g, (step x s (.cbor i (.ga (.ok q))) env).2 = .resp (.ga g) → g.ad.uv = false
  lb : s.flash.pinHash ≠ none → ∀ i (q : LbReq) env a, q.get = none → (step x s (.cbor i (.lb (.ok q))) env).2 ≠ .resp a

theorem Spent.drained {s : St} (h : Spent s.ram.tok) : Drained x s := by
  constructor
  · intro i q env m ho
    cases hv : m.ad.uv with
    | false => rfl
    | true =>
      have h1 := (mc_uv ho hv).1
      have := (h h1.inUse).1
      rw [h1.uv] at this
      cases this
  · intro i q env m ho
    cases hv : m.ad.uv with
    | false => rfl
    | true =>
      have h1 := (ga_uv ho hv).1
      have := (h h1.inUse).1
      rw [h1.uv] at this
      cases this
  · intro hp i q env a hq ho
    obtain ⟨_, _, _, _, _, h1⟩ := lb_auth hq hp ho
    exact h1.perm (h h1.inUse).2

theorem spent_of_flags {t : Tok} (h : t.verifiedFlag = false) (h2 : t.inUse = true → t.perms &&& permLbw = 0) : Spent t := by
  intro hu
  unfold Tok.verifiedFlag at h
  rw [hu] at h
  exact ⟨h, h2 hu⟩

/-- After a registration, no registration, assertion or large-blob write is authorized any more until the
PIN is presented again.  (What is missing of C55: the token remains good for credential management.) -/
theorem C55_after_registration_partial (hx : x.Sized) (s : St) (i : In) (q : McReq) (env : Env) (m : McResp)
    (h : (step x s (.cbor i (.mc (.ok q))) env).2 = .resp (.mc m)) (ops : List (Op × Env))
    (hr : NeverRight x (step x s (.cbor i (.mc (.ok q))) env).1 ops) :
    Drained x (run x (step x s (.cbor i (.mc (.ok q))) env).1 ops).1 := by
  obtain ⟨r1, ⟨m', hm, hd⟩, h2⟩ := resp_of x i (wp_makeCredential x i q) h
  refine (Spent.run hx ops hr ?_).drained
  rw [h2]
  exact spent_of_flags hd.tok.1 hd.tok.2.2

/-- The same after an assertion with user presence. -/
theorem C55_after_assertion_partial (hx : x.Sized) (s : St) (i : In) (q : GaReq) (env : Env) (g : GaResp)
    (h : (step x s (.cbor i (.ga (.ok q))) env).2 = .resp (.ga g)) (hup : q.up ≠ .no) (ops : List (Op × Env))
    (hr : NeverRight x (step x s (.cbor i (.ga (.ok q))) env).1 ops) :
    Drained x (run x (step x s (.cbor i (.ga (.ok q))) env).1 ops).1 := by
  obtain ⟨q', g', hq, hg, hb⟩ := ga_resp x i h
  cases hq
  obtain ⟨d, f1, r1, _, _, h3, h4, _, _, _, r', hd, hr'⟩ := hb.done
  refine (Spent.run hx ops hr ?_).drained
  rw [hr']
  show Spent r'.tok
  rw [hd.tok, if_pos ⟨h3, by rw [h4]; exact hup⟩]
  have := clearFlags_flags r1.tok
  exact spent_of_flags this.1 (fun h => by rw [this.2.2 h]; exact and_not_lbw _)

section
open Toy

/-- C55 is false: a token with permissions to register, to manage credentials and to write large blobs is
used for a registration.  Afterwards it still manages credentials, while the write of large blobs, which
alone should survive, is refused. -/
theorem C55_refuted :
    ∃ ops : List (Op × Env), NeverRight ext (run ext withPin1 (hist [(25000, getToken pin1 0x15 none)])).1 ops ∧
      ((run ext (run ext withPin1 (hist [(25000, getToken pin1 0x15 none)])).1 ops).2
        matches [.resp (.mc _), .resp (.cred _), .err 0x33]) = true :=
  ⟨hist [(26000, mc rpA user1 .yes 1 (some (auth cdh))), (26000, cm 4 rpA []),
    (26000, .lb (.ok ⟨none, List.replicate 17 0, 0, 17, some 1,
      some (auth (lbMsg ext ⟨none, List.replicate 17 0, 0, 17, some 1, none⟩))⟩))],
    by decide +kernel, by decide +kernel⟩

/-- Before the registration, the write is accepted. -/
example : (run ext withPin1 (hist [(25000, getToken pin1 0x15 none), (26000, .lb (.ok ⟨none, List.replicate 17 0, 0, 17, some 1,
      some (auth (lbMsg ext ⟨none, List.replicate 17 0, 0, 17, some 1, none⟩))⟩))])).2.getLast? = some (.resp .empty) := by
  decide +kernel
end

end Verif.Ctap
