import Verif.Lemmas.CtapGood
import Verif.Props.CtapHandle
/-
C56, C57: the credential store is consistent after any history, and the number of credentials.
-/
namespace Verif.Ctap
open Cmd

variable {x : Ext}

/-! ### Specification -/

/-- Every credential belongs to exactly one relying-party entry in use, which is for its relying party; every
slot that an entry names holds a credential of its relying party; and no two entries in use are for the same
relying party. -/
structure Consistent (f : Flash) : Prop where
  files : ∃ recs ms, rdRecs f = some recs ∧ f.dm = some ms ∧
    (∀ (p : Nat) (d : Dc), recs[p]? = some d → d.deleted = false →
      ∃ (j : Nat) (m : Meta), ms[j]? = some m ∧ m.slots.getLsbD p = true ∧ m.hash = Cid.rp d.cid ∧
        ∀ (k : Nat) (m' : Meta), ms[k]? = some m' → m'.slots.getLsbD p = true → k = j) ∧
    (∀ (j : Nat) (m : Meta) (p : Nat), ms[j]? = some m → m.slots.getLsbD p = true →
      ∃ d, recs[p]? = some d ∧ d.deleted = false ∧ Cid.rp d.cid = m.hash) ∧
    (∀ (j k : Nat) (m m' : Meta), ms[j]? = some m → ms[k]? = some m' → m.slots ≠ 0#64 → m'.slots ≠ 0#64 → m.hash = m'.hash → j = k)

/-- The store has been made and holds nothing, as after installation and reset. -/
structure Unused (f : Flash) : Prop where
  dc : ∃ i, f.dc = some ⟨[], some ⟨0, i, false, false⟩⟩
  dm : f.dm = some []
  lb : f.lb.isSome = true

/-- What the platform and the random generator deliver has the sizes of the specification. -/
def Op.sized : Op → Prop
  | .cbor i (.mc (.ok q)) => i.rndNonce.length = 16 ∧ q.rpHash.length = 32
  | _ => True

/-- The command registers a resident credential for a relying party and user for which there is one that is in
order (not in the middle of an update that was interrupted). -/
def Replaces (f : Flash) : Op → Prop
  | .cbor _ (.mc (.ok q)) => q.rk = .yes ∧ ∃ recs p d, rdRecs f = some recs ∧ LiveAt recs p d ∧ Cid.rp d.cid = q.rpHash ∧ d.user.id = q.user.id ∧
      ∀ a, rdAttr f = some a → (a.add || a.del) = true → a.index.toNat ≠ p
  | _ => False

/-! ### Commands -/

theorem Good.consistent {K : Prop} {f : Flash} (g : Good K f) (h : Settled f) : Consistent f := by
  obtain ⟨recs, ms, a, g⟩ := g
  obtain ⟨a', ha, h1, h2⟩ := h
  rw [g.attr] at ha
  cases ha
  have hinv : Inv recs ms none := pend_none h1 h2 ▸ g.inv
  refine ⟨recs, ms, g.recs, g.dm, fun p d hp hd => ?_, fun j m p hj hb => ?_, fun j k m m' hj hk h1 h2 h3 => hinv.diff hj hk h1 h2 h3⟩
  · obtain ⟨j, m, e1, e2, e3⟩ := (hinv.fits p nofun).forth d ⟨hp, hd⟩
    exact ⟨j, m, e1, e2, e3, fun k m' e4 e5 => hinv.once k j m' m p e4 e1 e5 e2⟩
  · obtain ⟨d, hd, e⟩ := (hinv.fits p nofun).back j m hj hb
    exact ⟨d, hd.1, hd.2, e.symm⟩

variable {A : Fault → Prop} {f : Flash} {r : Ram} {K : Prop}

/-- `wp` for a command that leaves the store alone. -/
theorem good_keep {α : Type} {m : M α} (h : Rel Keep m) (hg : Good K f) (hs : Settled f) :
    wp A m (fun _ f' _ => Good K f' ∧ Settled f') (fun _ f' _ => Good K f') (fun f' _ => Good K f') f r :=
  good_mono h hg fun _ _ _ k => ⟨hg.keep k, hs.keep k⟩

theorem good_mcFinish (i : In) (q : McReq) (uv : Bool) (hm : ∀ k m, (x.hmac k m).length = 32) (hn : i.rndNonce.length = 16)
    (hp : q.rpHash.length = 32) (g : Good K f) (hs : Settled f) (hk : K → q.rk = .yes → ¬ Stores f q.rpHash q.user.id) :
    wp A (mcFinish x i q uv) (fun _ f' _ => Good K f' ∧ Settled f') (fun _ f' _ => Good K f') (fun f' _ => Good K f') f r := by
  unfold mcFinish
  apply wp_bind
  apply wp_failIf
  · intro _; exact g
  intro _
  apply wp_bind
  have hk1 := kp_makeAuthData x i q.rpHash (0x41 ||| (if mcExt q then 0x80 else 0) ||| (if uv then 0x04 else 0)) q.alg
    (if q.rk == .yes then 1 else 0) q.protect A f r
  have hk2 : wp A (makeAuthData x i q.rpHash (0x41 ||| (if mcExt q then 0x80 else 0) ||| (if uv then 0x04 else 0)) q.alg
    (if q.rk == .yes then 1 else 0) q.protect) (fun a _ _ => Cid.rp (a.att.getD []) = q.rpHash) (fun _ _ _ => True) (fun _ _ => True) f r := by
    apply wp_authData
    intro c f' _ _
    refine ⟨fun _ kh _ _ => ?_, fun h => absurd h (mcFlags _ _).1⟩
    exact (makeCid_parts hm hn hp).2.2.1
  refine wp_mono (wp_and hk1 hk2) ?_ (fun _ _ _ h => g.keep h.1) (fun _ _ h => g.keep h.1)
  rintro ad f1 r1 ⟨k1, k2⟩
  have g1 := g.keep k1
  have hs1 := hs.keep k1
  have tail : ∀ {f : Flash} {r : Ram}, Good K f → Settled f → wp A (do
      let _ ← Cmd.rdOr (rdCert (·.key)) (.code Code.unhandled)
      let _ ← Cmd.rdOr (rdCert (fun c => some c.data)) (.code Code.unhandled)
      let lbk ← if q.lbk then (do let k ← largeBlobKey x (ad.att.getD []); pure (some k)) else pure none
      return Resp.mc ⟨ad, q.credBlob.map fun b => b.length ≤ 32 && q.rk == .yes,
        if q.protect != 0 then some q.protect else none, q.hmacSecret, q.cdh, lbk⟩)
      (fun _ f' _ => Good K f' ∧ Settled f') (fun _ f' _ => Good K f') (fun f' _ => Good K f') f r := by
    intro f r g hs
    refine good_keep ?_ g hs
    rels (first | exact kp_same (same_largeBlobKey x _) | keeps)
  by_cases hrk : q.rk = .yes
  · rw [if_pos (by simp [hrk])]
    apply wp_bind
    refine wp_mono (wp_mcStore g1 hs1 k2 fun k hst => hk k hrk ?_) (fun _ _ _ h => tail h.1 h.2) (fun _ _ _ h => h) (fun _ _ h => h)
    obtain ⟨recs, p, d, e, h⟩ := hst
    refine ⟨recs, p, d, ?_, h⟩
    unfold rdRecs at *
    rw [k1.1] at e
    exact e
  · rw [if_neg (by simp [hrk])]
    exact tail g1 hs1

theorem good_makeCredential (i : In) (q : Except Byte McReq) (hm : ∀ k m, (x.hmac k m).length = 32) (hz : (Op.cbor i (.mc q)).sized)
    {recs : List Dc} {ms : List Meta} {a : Attr} (g : Good' K f recs ms a) (hA : ¬ Settled f → ¬ A .fail)
    (hk : K → ¬ Replaces f (.cbor i (.mc q))) :
    wp A (makeCredential x i q) (fun _ f' _ => Good K f' ∧ Settled f') (fun _ f' _ => Good K f') (fun f' _ => Good K f') f r := by
  unfold makeCredential
  cases q with
  | error c => exact wp_fail g.good
  | ok q =>
    apply wp_bind
    refine wp_mono (wp_consistency g hA) ?_ (fun _ _ _ h => h) (fun _ _ h => h)
    rintro _ f1 r1 ⟨⟨g1, hs1⟩, hkept⟩
    have hk1 : K → q.rk = .yes → ¬ Stores f1 q.rpHash q.user.id := by
      rintro k hrk ⟨recs', p, d, e, hl, h1, h2⟩
      obtain ⟨hl', hp⟩ := hkept recs' p d e hl
      refine hk k ⟨hrk, recs, p, d, g.recs, hl', h1, h2, fun a' ha' hpd => ?_⟩
      rw [g.attr] at ha'
      cases ha'
      exact hp hpd
    -- up to the creation of the credential nothing is written to the store
    have mid : ∀ {α : Type} {m : M α} {n : α → M Resp} {f : Flash} {r : Ram}, Rel Keep m →
        (Good K f ∧ Settled f ∧ (K → q.rk = .yes → ¬ Stores f q.rpHash q.user.id)) →
        (∀ a f' r', (Good K f' ∧ Settled f' ∧ (K → q.rk = .yes → ¬ Stores f' q.rpHash q.user.id)) →
          wp A (n a) (fun _ f' _ => Good K f' ∧ Settled f') (fun _ f' _ => Good K f') (fun f' _ => Good K f') f' r') →
        wp A (m >>= n) (fun _ f' _ => Good K f' ∧ Settled f') (fun _ f' _ => Good K f') (fun f' _ => Good K f') f r := by
      intro α m n f r hm h hn
      apply wp_bind
      refine good_mono hm h.1 fun a f' r' k => hn a f' r' ⟨h.1.keep k, h.2.1.keep k, fun kk hrk hst => h.2.2 kk hrk ?_⟩
      obtain ⟨recs, p, d, e, h⟩ := hst
      refine ⟨recs, p, d, ?_, h⟩
      unfold rdRecs at *
      rw [k.1] at e
      exact e
    refine mid (kp_same (same_emptyAuth _ _)) ⟨g1, hs1, hk1⟩ fun _ f r h => ?_
    refine mid (by rels (keeps)) h fun _ f r h => ?_
    refine mid (by rels (keeps)) h fun _ f r h => ?_
    refine mid (by rels (keeps)) h fun _ f r h => ?_
    refine mid (kp_same same_hasPin) h fun p f r h => ?_
    refine mid (by rels (keeps)) h fun _ f r h => ?_
    have last : ∀ uv f r, (Good K f ∧ Settled f ∧ (K → q.rk = .yes → ¬ Stores f q.rpHash q.user.id)) →
        wp A (do mcExclude x i q uv q.exclude i.junk; takePresence i q.pinAuth; mcFinish x i q uv)
          (fun _ f' _ => Good K f' ∧ Settled f') (fun _ f' _ => Good K f') (fun f' _ => Good K f') f r := by
      intro uv f r h
      refine mid (kp_same (same_mcExclude x i _ _ _ _)) h fun _ f r h => ?_
      refine mid (kp_takePresence i _) h fun _ f r h => ?_
      exact good_mcFinish i q uv hm hz.1 hz.2 h.1 h.2.1 h.2.2
    apply wp_ite <;> intro _
    · exact last false f r h
    · exact mid (kp_mcAuth x i q) h fun uv f r h => last uv f r h

theorem good_getAssertion (i : In) (q : Except Byte GaReq)
    {recs : List Dc} {ms : List Meta} {a : Attr} (g : Good' K f recs ms a) (hA : ¬ Settled f → ¬ A .fail) :
    wp A (getAssertion x i q) (fun _ f' _ => Good K f' ∧ Settled f') (fun _ f' _ => Good K f') (fun f' _ => Good K f') f r := by
  unfold getAssertion
  apply wp_bind
  apply wp_mod
  apply wp_bind
  refine wp_mono (wp_consistency g hA) ?_ (fun _ _ _ h => h) (fun _ _ h => h)
  rintro _ f1 r1 ⟨⟨g1, hs1⟩, _⟩
  refine good_keep ?_ g1 hs1
  rels (first | exact kp_gaCheck x i _ | exact kp_gaFinish x i | keeps)

theorem good_credMgmt (i : In) (q : Except Byte CmReq)
    {recs : List Dc} {ms : List Meta} {a : Attr} (g : Good' K f recs ms a) (hA : ¬ Settled f → ¬ A .fail) :
    wp A (credMgmt x i q) (fun _ f' _ => Good K f' ∧ Settled f') (fun _ f' _ => Good K f') (fun f' _ => Good K f') f r := by
  unfold credMgmt
  cases q with
  | error c => exact wp_fail g.good
  | ok q =>
    apply wp_bind
    refine wp_mono (wp_consistency g hA) ?_ (fun _ _ _ h => h) (fun _ _ h => h)
    rintro _ f1 r1 ⟨⟨g1, hs1⟩, _⟩
    have main : ∀ (n : Byte) (f : Flash) (r : Ram), Good K f → Settled f → wp A (
        if q.sub == 1 then do
          let r ← Cmd.get
          failIf r.tok.rp.isSome Code.pinAuthInvalid
          return .credsMeta n.toNat (64 - (n.toNat : Int))
        else if q.sub == 2 then cmRpsBegin n
        else if q.sub == 3 then cmNextRp q
        else if q.sub == 4 then cmCredsBegin x q n
        else if q.sub == 5 then cmNextCred x q
        else if q.sub == 6 then cmDelete q n
        else if q.sub == 7 then cmUpdate q n
        else return .empty : M Resp) (fun _ f' _ => Good K f' ∧ Settled f') (fun _ f' _ => Good K f') (fun f' _ => Good K f') f r := by
      intro n f r g hs
      obtain ⟨l1, l2, l3, l4, _⟩ := kp_cmList x q n
      apply wp_ite <;> intro _
      · refine good_keep ?_ g hs
        rels (keeps)
      apply wp_ite <;> intro _
      · exact good_keep l1 g hs
      apply wp_ite <;> intro _
      · exact good_keep l2 g hs
      apply wp_ite <;> intro _
      · exact good_keep l3 g hs
      apply wp_ite <;> intro _
      · exact good_keep l4 g hs
      apply wp_ite <;> intro _
      · exact wp_cmDelete g hs
      apply wp_ite <;> intro _
      · exact wp_cmUpdate g hs
      · exact wp_pure ⟨g, hs⟩
    apply wp_ite <;> intro _
    · apply wp_bind
      exact good_mono (kp_cmAuth x i q) g1 fun n f' r' k => main n f' r' (g1.keep k) (hs1.keep k)
    · exact main 0 f1 r1 g1 hs1

/-- Commands that begin with the consistency check. -/
def Req.checks : Req → Bool
  | .mc _ => true
  | .ga _ => true
  | .cm _ => true
  | _ => false

theorem good_handle (i : In) (q : Req) (hq : q ≠ .reset) (hm : ∀ k m, (x.hmac k m).length = 32) (hz : (Op.cbor i q).sized)
    (g : Good K f) (hA : ¬ Settled f → ¬ A .fail) (hk : K → ¬ Replaces f (.cbor i q)) :
    wp A (handle x i q) (fun _ f' _ => Good K f' ∧ (q.checks = true → Settled f')) (fun _ f' _ => Good K f') (fun f' _ => Good K f') f r := by
  have frame : ∀ {m : M Resp}, q.checks = false → Rel Keep m →
      wp A m (fun _ f' _ => Good K f' ∧ (q.checks = true → Settled f')) (fun _ f' _ => Good K f') (fun f' _ => Good K f') f r := by
    intro m hc hm
    exact good_mono hm g fun _ _ _ k => ⟨g.keep k, fun h => by rw [hc] at h; cases h⟩
  have strong : ∀ {m : M Resp},
      wp A m (fun _ f' _ => Good K f' ∧ Settled f') (fun _ f' _ => Good K f') (fun f' _ => Good K f') f r →
      wp A m (fun _ f' _ => Good K f' ∧ (q.checks = true → Settled f')) (fun _ f' _ => Good K f') (fun f' _ => Good K f') f r :=
    fun h => wp_mono h (fun _ _ _ h => ⟨h.1, fun _ => h.2⟩) (fun _ _ _ h => h) (fun _ _ h => h)
  obtain ⟨recs, ms, a, g'⟩ := id g
  cases q with
  | mc q => exact strong (good_makeCredential i q hm hz g' hA hk)
  | ga q => exact strong (good_getAssertion i q g' hA)
  | gna => exact frame rfl (kp_getNext x i)
  | info => exact frame rfl (Rel.bind (kp_same same_hasPin) fun _ => Rel.pure _)
  | cp q => exact frame rfl (kp_clientPin x i q)
  | reset => exact absurd rfl hq
  | cm q => exact strong (good_credMgmt i q g' hA)
  | sel => exact frame rfl (Rel.bind (kp_same (same_wait _ _)) fun _ => Rel.pure _)
  | lb q => exact frame rfl (kp_largeBlobs x i q)
  | other c => exact frame rfl (Rel.fail _)

/-! ### Histories -/

/-- `P` holds of every step of the history in the state in which it is made. -/
def Along (x : Ext) (P : St → Op × Env → Prop) : St → List (Op × Env) → Prop
  | _, [] => True
  | s, o :: ops => P s o ∧ Along x P (step x s o.1 o.2).1 ops

theorem good_step (hm : ∀ k m, (x.hmac k m).length = 32) (s : St) (op : Op) (env : Env) (hr : op.resets = false)
    (hp : op.powers = true → noFail env) (hz : op.sized) (hl : s.flash.lb.isSome = true) (hf : ¬ Settled s.flash → noFail env)
    (g : Good K s.flash) (hk : K → ¬ Replaces s.flash op) :
    Good K (step x s op env).1.flash ∧
    (∀ i q a, op = .cbor i q → q.checks = true → (step x s op env).2 = .resp a → Settled (step x s op env).1.flash) := by
  have frame : ∀ {α : Type} (m : M α) (g' : α → Out), Rel Keep m → Good K (exec m g' s env).1.flash := by
    intro α m g' hm
    exact exec_wp (P := fun p : St × Out => Good K p.1.flash) (A := fun _ => True) (fun _ => trivial)
      (good_mono hm g (Q := fun _ f' _ => Good K f') fun _ _ _ k => g.keep k) (fun _ _ _ h => h) (fun _ _ _ h => h) (fun _ _ _ h => h) (fun _ _ h => h)
  cases op with
  | powerOn i =>
    have : (step x s (.powerOn i) env).1.flash = s.flash := by
      unfold step
      exact exec_wp (P := fun p : St × Out => p.1.flash = s.flash) (A := (· ≠ .fail)) (hp rfl)
        (secret_install i s.flash Ram.init hl) (fun _ _ _ h => h) (fun _ _ _ h => h) (fun _ _ _ h => h) (fun _ _ h => h)
    rw [this]
    exact ⟨g, fun _ _ _ e => nomatch e⟩
  | u2f i q => exact ⟨frame (u2f x i q) .u2f (kp_u2f x i q), fun _ _ _ e => nomatch e⟩
  | adminReset i => cases hr
  | installKey k => exact ⟨frame (installKeyM k) (fun _ => .done) (by unfold installKeyM; rels (keeps)), fun _ _ _ e => nomatch e⟩
  | installCert k =>
    refine ⟨frame (installCertM k) (fun _ => .done) ?_, fun _ _ _ e => nomatch e⟩
    unfold installCertM
    refine Rel.wrOr ?_
    intro f r f' h
    cases h
    exact ⟨rfl, rfl⟩
  | writeSm2 k => exact ⟨frame (writeSm2M k) (fun _ => .done) (by unfold writeSm2M; rels (keeps)), fun _ _ _ e => nomatch e⟩
  | cbor i q =>
    have hq : q ≠ .reset := by
      rintro rfl
      cases hr
    have hA : ∃ A : Fault → Prop, (∀ n, A (env n)) ∧ (¬ Settled s.flash → ¬ A .fail) := by
      by_cases hs : Settled s.flash
      · exact ⟨fun _ => True, fun _ => trivial, fun h => absurd hs h⟩
      · exact ⟨(· ≠ .fail), hf hs, fun _ h => h rfl⟩
    obtain ⟨A, hA1, hA2⟩ := hA
    have := cbor_wp (s := s) (i := i) (q := q) (env := env) (P := fun p : St × Out => Good K p.1.flash ∧ (q.checks = true → ∀ a, p.2 = .resp a → Settled p.1.flash))
      (A := A) hA1 (good_handle i q hq hm hz g hA2 hk) (fun _ _ _ h => ⟨h.1, fun hc _ _ => h.2 hc⟩)
      (fun _ _ _ h => ⟨h, nofun⟩) (fun _ _ _ h => ⟨h, nofun⟩) (fun _ _ h => ⟨h, nofun⟩)
    refine ⟨this.1, fun i' q' a e hc ho => ?_⟩
    cases e
    exact this.2 hc a ho

/-- What is assumed of a history: no reset; boots without storage errors, and no storage errors in a command
that has an interrupted update to recover; inputs of the right sizes. Power may be cut anywhere, and storage errors
may happen in all other commands. -/
def Fair (s : St) (o : Op × Env) : Prop :=
  o.1.resets = false ∧ (o.1.powers = true ∨ ¬ Settled s.flash → noFail o.2) ∧ o.1.sized

theorem good_run (hm : ∀ k m, (x.hmac k m).length = 32) (ops : List (Op × Env)) (s : St) (hl : s.flash.lb.isSome = true)
    (hf : Along x Fair s ops) (hk : K → Along x (fun s o => ¬ Replaces s.flash o.1) s ops) (g : Good K s.flash) :
    Good K (run x s ops).1.flash ∧ (run x s ops).1.flash.lb.isSome = true := by
  induction ops generalizing s with
  | nil => exact ⟨g, hl⟩
  | cons o ops ih =>
    obtain ⟨op, e⟩ := o
    obtain ⟨⟨h1, h2, h3⟩, h4⟩ := hf
    rw [run_cons]
    refine ih _ ((secret_step (x := x) s op e h1 (fun h => h2 (Or.inl h)) hl).lb hl) h4 (fun k => (hk k).2) ?_
    exact (good_step hm s op e h1 (fun h => h2 (Or.inl h)) h3 hl (fun h => h2 (Or.inr h)) g (fun k => (hk k).1)).1

theorem Unused.good {f : Flash} (h : Unused f) : Good K f := by
  obtain ⟨i, hdc⟩ := h.dc
  refine ⟨[], [], _, hdc, h.dm, ⟨by simp, ?_, ?_, fun p _ => ⟨?_, ?_⟩, nofun⟩, fun _ => rfl, rfl⟩
  · intro i j m m' _ h; simp at h
  · intro i j m m' p h; simp at h
  · rintro d ⟨h, _⟩; simp at h
  · intro j m h; simp at h

/-! ### C56 -/

/-- After any history of commands and power cuts, the store is consistent unless an update was interrupted and
not yet recovered. -/
theorem C56_between_updates (hm : ∀ k m, (x.hmac k m).length = 32) (s : St) (hs : Unused s.flash) (ops : List (Op × Env))
    (hf : Along x Fair s ops) (a : Attr) (ha : rdAttr (run x s ops).1.flash = some a) (hn : a.add = false ∧ a.del = false) :
    Consistent (run x s ops).1.flash :=
  ((good_run (K := False) hm ops s hs.lb hf False.elim hs.good).1).consistent ⟨a, ha, hn⟩

/-- After any history of commands and power cuts, the consistency check makes the store consistent: it ends
with success if power is not cut again. -/
theorem C56_check (hm : ∀ k m, (x.hmac k m).length = 32) (s : St) (hs : Unused s.flash) (ops : List (Op × Env))
    (hf : Along x Fair s ops) (env : Env) (he : noFail env) (o : St × Out)
    (ho : o = exec consistency (fun _ => .done) (run x s ops).1 env) :
    (o.2 = .done ∧ Consistent o.1.flash) ∨ (o.2 = .cut ∧ ∃ n, env n = .cut) := by
  subst ho
  obtain ⟨recs, ms, a, g⟩ := (good_run (K := False) hm ops s hs.lb hf False.elim hs.good).1
  refine exec_wp (P := fun o : St × Out => (o.2 = .done ∧ Consistent o.1.flash) ∨ (o.2 = .cut ∧ ∃ n, env n = .cut))
    (A := fun e => e ≠ .fail ∧ ∃ n, env n = e) (fun n => ⟨he n, n, rfl⟩)
    (Q := fun _ f' _ => Consistent f') (E := fun _ _ _ => False) (X := fun _ _ => ∃ n, env n = .cut) ?_ (fun _ _ _ h => Or.inl ⟨rfl, h⟩)
    (fun _ _ _ h => h.elim) (fun _ _ _ h => h.elim) (fun _ _ h => Or.inr ⟨rfl, h⟩)
  by_cases hp : (a.add || a.del) = true
  · exact wp_mono (wp_recover g hp (fun h => h.1 rfl)) (fun _ _ _ h => h.1.1.consistent h.1.2) (fun _ _ _ h => h) (fun _ _ h => h.1.2)
  · simp at hp
    have hq : Settled (run x s ops).1.flash := ⟨a, g.attr, hp.1, hp.2⟩
    unfold consistency
    apply wp_bind
    apply wp_rd g.attr
    · rw [if_neg (by simp [hp])]
      exact wp_pure (g.good.consistent hq)
    · intro h; exact h.1 rfl
    · intro h; exact h.2

/-- After every makeCredential, getAssertion or credentialManagement command that is answered, the store is
consistent, whatever happened before. -/
theorem C56_answered (hm : ∀ k m, (x.hmac k m).length = 32) (s : St) (hs : Unused s.flash) (ops : List (Op × Env))
    (hf : Along x Fair s ops) (i : In) (q : Req) (hq : q.checks = true) (env : Env) (a : Resp)
    (hf' : Fair (run x s ops).1 (.cbor i q, env)) (h : (step x (run x s ops).1 (.cbor i q) env).2 = .resp a) :
    Consistent (step x (run x s ops).1 (.cbor i q) env).1.flash := by
  obtain ⟨g, hl⟩ := good_run (K := False) hm ops s hs.lb hf False.elim hs.good
  obtain ⟨g', hs'⟩ := good_step hm (run x s ops).1 (.cbor i q) env hf'.1 (fun h => hf'.2.1 (Or.inl h)) hf'.2.2 hl
    (fun h => hf'.2.1 (Or.inr h)) g False.elim
  exact g'.consistent (hs' i q a rfl hq h)

/-! ### C57 -/

theorem wp_cmNumbers (i : In) (q : CmReq) :
    wp A (cmAuth x i q) (fun n f' _ => f' = f ∧ ∃ a, rdAttr f = some a ∧ a.numbers = n) (fun _ _ _ => True) (fun _ _ => True) f r := by
  unfold cmAuth
  apply wp_bind
  apply wp_mod
  apply wp_bind
  apply wp_rdOr
  · intro a ha
    apply wp_bind
    apply wp_failIf
    · intro _; trivial
    intro _
    apply wp_bind
    apply wp_get
    apply wp_bind
    apply wp_failIf
    · intro _; trivial
    intro _
    apply wp_bind
    apply wp_verifyToken x i
    · intro _
      apply wp_bind
      apply wp_failIf
      · intro _; trivial
      intro _
      apply wp_bind
      apply wp_failIf
      · intro _; trivial
      intro _
      exact wp_pure ⟨rfl, a, ha, rfl⟩
    · intro _
      apply wp_bind
      apply wp_failIf
      · intro _; trivial
      intro _
      apply wp_bind
      apply wp_failIf
      · intro _; trivial
      intro _
      exact wp_pure ⟨rfl, a, ha, rfl⟩
  · intro _; trivial
  · intro _; trivial
  · intro _; trivial

/-- The number of credentials that are reported is the number of those that exist, if no credential was registered for
a relying party and user that had one. (Missing: see `C57_refuted`.) -/
theorem C57_reported_partial (hm : ∀ k m, (x.hmac k m).length = 32) (s : St) (hs : Unused s.flash) (ops : List (Op × Env))
    (hf : Along x Fair s ops) (hk : Along x (fun s o => ¬ Replaces s.flash o.1) s ops) (i : In) (q : CmReq) (hq : q.sub = 1) (env : Env)
    (a : Resp) (hf' : Fair (run x s ops).1 (.cbor i (.cm (.ok q)), env))
    (h : (step x (run x s ops).1 (.cbor i (.cm (.ok q))) env).2 = .resp a) :
    ∃ recs, rdRecs (step x (run x s ops).1 (.cbor i (.cm (.ok q))) env).1.flash = some recs ∧
      a = .credsMeta (recs.countP (!·.deleted)) (64 - (recs.countP (!·.deleted) : Int)) := by
  obtain ⟨g, hl⟩ := good_run (K := True) hm ops s hs.lb hf (fun _ => hk) hs.good
  obtain ⟨⟨recs, ms, b, g'⟩, hs'⟩ := good_step hm (run x s ops).1 (.cbor i (.cm (.ok q))) env hf'.1 (fun h => hf'.2.1 (Or.inl h)) hf'.2.2 hl
    (fun h => hf'.2.1 (Or.inr h)) g (fun _ => id)
  obtain ⟨b', e1, e2, e3⟩ := hs' i (.cm (.ok q)) a rfl rfl h
  rw [g'.attr] at e1
  cases e1
  have := resp_of x i (s := (run x s ops).1) (q := .cm (.ok q)) (Q := fun a f' _ => ∃ b, rdAttr f' = some b ∧
    a = .credsMeta b.numbers.toNat (64 - (b.numbers.toNat : Int))) ?_ h
  · obtain ⟨_, ⟨b', h1, h2⟩, _⟩ := this
    rw [g'.attr] at h1
    cases h1
    have hc := g'.count trivial
    unfold Counted at hc
    simp only [e2, e3, Bool.or_self, Bool.false_eq_true, if_false, Nat.add_zero] at hc
    exact ⟨recs, g'.recs, by rw [h2, hc]; rfl⟩
  · show wp _ (credMgmt x i (.ok q)) _ _ _ _ _
    unfold credMgmt
    apply wp_bind
    refine wp_mono (wp_true _) ?_ (fun _ _ _ _ => trivial) (fun _ _ _ => trivial)
    intro _ f1 r1 _
    simp only [hq]
    rw [if_pos (by decide)]
    apply wp_bind
    refine wp_mono (wp_cmNumbers i q) ?_ (fun _ _ _ _ => trivial) (fun _ _ _ => trivial)
    rintro n f2 r2 ⟨rfl, b, hb, rfl⟩
    rw [if_pos (by decide)]
    apply wp_bind
    apply wp_get
    apply wp_bind
    apply wp_failIf
    · intro _; trivial
    intro _
    exact wp_pure ⟨b, hb, rfl⟩

section
open Toy

theorem toy_hmac (k m : Bytes) : (ext.hmac k m).length = 32 := by
  show (Toy.hmac k m).length = 32
  unfold Toy.hmac
  simp

theorem produced_unused : Unused produced.flash := ⟨⟨0, by decide +kernel⟩, by decide +kernel, by decide +kernel⟩

/-- Registering a second time for the same relying party and user replaces the credential, but two are reported. -/
theorem C57_refuted : ∃ (s : St) (ops : List (Op × Env)), Unused s.flash ∧ Along ext Fair s ops ∧
    (run ext s ops).2.getLast? = some (.resp (.credsMeta 2 62)) ∧
    ((rdRecs (run ext s ops).1.flash).map fun l => l.countP (!·.deleted)) = some 1 := by
  refine ⟨produced, hist [(20000, mc rpA user1 .yes 1 none), (20001, mc rpA user1 .yes 1 none), (20002, Toy.setPin pin1),
    (20003, getToken pin1 4 none), (20004, cm 1 [] [])], produced_unused, ?_, by decide +kernel, by decide +kernel⟩
  refine ⟨⟨rfl, fun _ _ => nofun, by decide, by decide⟩, ⟨rfl, fun _ _ => nofun, by decide, by decide⟩, ⟨rfl, fun _ _ => nofun, trivial⟩,
    ⟨rfl, fun _ _ => nofun, trivial⟩, ⟨rfl, fun _ _ => nofun, trivial⟩, trivial⟩

/-- A history with power cuts at every place in turn of the creation of a second credential. -/
def crashing (n : Nat) : List (Op × Env) :=
  [(.cbor (env 20000) (mc rpA user1 .yes 1 none), fine), (.cbor (envN 20001 5) (mc rpB user2 .yes 1 none), cutAt n),
   (.powerOn (env 0), fine)]

/-- The number of records, those that are not deleted, the numbers of slots of the relying-party entries, and what is pending. -/
def sketch (f : Flash) : Option (List Bool) × Option (List Nat) × Option (Bool × Bool) :=
  ((rdRecs f).map fun l => l.map (!·.deleted), f.dm.map fun l => l.map (·.slots.toNat), (rdAttr f).map fun a => (a.add, a.del))

-- a record without an entry, an entry without a number, …
example : (List.range 6).map (fun n => sketch (run ext produced (crashing (n + 10))).1.flash) =
    [(some [true], some [1], some (true, false)), (some [true, true], some [1], some (true, false)),
     (some [true, true], some [1], some (true, false)), (some [true, true], some [1], some (true, false)),
     (some [true, true], some [1, 2], some (true, false)), (some [true, true], some [1, 2], some (false, false))] := by decide +kernel
-- … and what the next command makes of it
example : (List.range 6).map (fun n => sketch (run ext produced (crashing (n + 10) ++ [(.cbor (env 5) (ga rpA [] .absent none), fine)])).1.flash) =
    [(some [true], some [1], some (false, false)), (some [true, false], some [1], some (false, false)),
     (some [true, false], some [1], some (false, false)), (some [true, false], some [1], some (false, false)),
     (some [true, false], some [1, 0], some (false, false)), (some [true, true], some [1, 2], some (false, false))] := by decide +kernel

theorem cutAt_noFail (n : Nat) : noFail (cutAt n) := by
  intro k
  unfold cutAt
  split <;> nofun

theorem crashing_fair (n : Nat) : Along ext Fair produced (crashing n) :=
  ⟨⟨rfl, fun _ _ => nofun, by decide, by decide⟩, ⟨rfl, fun _ => cutAt_noFail n, by decide, by decide⟩, ⟨rfl, fun _ _ => nofun, trivial⟩, trivial⟩

-- the theorems apply, and no credential is replaced
example (n : Nat) : let o := exec consistency (fun _ => .done) (run ext produced (crashing n)).1 fine
    o.2 = .done ∧ Consistent o.1.flash := by
  rcases C56_check toy_hmac produced produced_unused _ (crashing_fair n) fine (fun _ => nofun) _ rfl with h | ⟨_, k, h⟩
  · exact h
  · cases h

/-- What `Consistent` forbids, as a test: a credential without entry. -/
def orphan (f : Flash) (p : Nat) : Bool :=
  match rdRecs f, f.dm with
  | some recs, some ms => recs[p]?.any (!·.deleted) && ms.all (fun m => !m.slots.getLsbD p)
  | _, _ => false
/-- … and an entry without credential. -/
def dangling (f : Flash) (j p : Nat) : Bool :=
  match rdRecs f, f.dm with
  | some recs, some ms => !recs[p]?.any (!·.deleted) && ms[j]?.any (fun m => m.slots.getLsbD p)
  | _, _ => false

theorem not_of_orphan {f : Flash} {p : Nat} (h : orphan f p = true) : ¬ Consistent f := by
  rintro ⟨recs, ms, h1, h2, h3, _, _⟩
  unfold orphan at h
  rw [h1, h2] at h
  simp only [Bool.and_eq_true, Option.any_eq_true] at h
  obtain ⟨⟨d, hd, hdd⟩, hall⟩ := h
  obtain ⟨j, m, hj, hb, _⟩ := h3 p d hd (by simpa using hdd)
  have := List.all_eq_true.mp hall m (List.mem_of_getElem? hj)
  rw [hb] at this
  cases this

theorem not_of_dangling {f : Flash} {j p : Nat} (h : dangling f j p = true) : ¬ Consistent f := by
  rintro ⟨recs, ms, h1, h2, _, h3, _⟩
  unfold dangling at h
  rw [h1, h2] at h
  simp only [Bool.and_eq_true, Option.any_eq_true] at h
  obtain ⟨hno, m, hj, hb⟩ := h
  obtain ⟨d, hd, hdd, _⟩ := h3 j m p hj hb
  rw [hd] at hno
  simp [hdd] at hno

/-- A storage error where the length of the record file is read makes the recovery skip the record and end: the
credential whose creation was interrupted is there without relying-party entry, and the check does not find it again. -/
theorem C56_storage_error_in_recovery : ∃ (n : Nat) (env' : Env), (∀ k, env' k ≠ .cut) ∧
    ¬ Consistent (run ext produced (crashing n ++ [(.cbor (env 5) (ga rpA [] .absent none), env')])).1.flash ∧
    ∃ a, rdAttr (run ext produced (crashing n ++ [(.cbor (env 5) (ga rpA [] .absent none), env')])).1.flash = some a ∧ a.add = false ∧ a.del = false := by
  refine ⟨13, fun k => if k = 1 then .fail else .ok, fun k => by dsimp only; split <;> nofun, not_of_orphan (p := 1) (by decide +kernel), ?_⟩
  have h : ((rdAttr (run ext produced (crashing 13 ++ [(.cbor (env 5) (ga rpA [] .absent none), fun k => if k = 1 then .fail else .ok)])).1.flash).map
      fun a => (a.add, a.del)) = some (false, false) := by decide +kernel
  revert h
  cases rdAttr (run ext produced (crashing 13 ++ [(.cbor (env 5) (ga rpA [] .absent none), fun k => if k = 1 then .fail else .ok)])).1.flash with
  | none => nofun
  | some a =>
    intro h
    simp at h
    exact ⟨a, rfl, h⟩

/-- A reset that is interrupted after the records are gone leaves relying-party entries for nothing, and the check
does not notice. -/
theorem C56_interrupted_reset : ∃ n, ¬ Consistent (run ext produced [(.cbor (env 20000) (mc rpA user1 .yes 1 none), fine),
    (.powerOn (env 0), fine), (.cbor (env 500) .reset, cutAt n), (.powerOn (env 0), fine),
    (.cbor (env 5) (ga rpA [] .absent none), fine)]).1.flash :=
  ⟨1, not_of_dangling (j := 0) (p := 0) (by decide +kernel)⟩

-- the number is right through the crashes, and is reported
example (n : Nat) : Along ext (fun s o => ¬ Replaces s.flash o.1) produced
    [(.cbor (env 20000) (mc rpA user1 .yes 1 none), fine), (.powerOn (env 0), cutAt n), (.cbor (env 20002) (Toy.setPin pin1), fine)] := by
  refine ⟨?_, id, id, trivial⟩
  rintro ⟨_, recs, p, d, h1, h2, _⟩
  have : rdRecs produced.flash = some [] := by decide +kernel
  rw [this] at h1
  cases h1
  exact absurd h2.1 (by simp)
example : (run ext produced (crashing 14 ++ hist [(20002, Toy.setPin pin1), (20003, getToken pin1 4 none), (20004, cm 1 [] [])])).2.getLast? =
    some (.resp (.credsMeta 1 63)) ∧
    (run ext produced (crashing 15 ++ hist [(20002, Toy.setPin pin1), (20003, getToken pin1 4 none), (20004, cm 1 [] [])])).2.getLast? =
    some (.resp (.credsMeta 2 62)) := by decide +kernel

end

end Verif.Ctap
