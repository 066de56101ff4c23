import Verif.Lemmas.CtapKept
/-
Properties of the ids of the stored credentials that all commands keep, except those that store a new one.
-/
namespace Verif.Ctap
open Cmd

variable {x : Ext} {α : Type} {A : Fault → Prop} {f : Flash} {r : Ram} {P : Nat → Bytes → Prop}

/-- Every stored credential has an id that is allowed in its slot. -/
def Slots (P : Nat → Bytes → Prop) (f : Flash) : Prop :=
  ∀ recs p d, rdRecs f = some recs → LiveAt recs p d → P p d.cid

instance : OfStore (Slots P) where
  keep f f' h hs := by
    intro recs p d hr
    refine hs recs p d ?_
    unfold rdRecs at hr ⊢
    rwa [← h]

theorem Slots.attr {a : Attr} {f' : Flash} (h : updAttr a f = some f') (hs : Slots P f) : Slots P f' := by
  intro recs p d hr
  refine hs recs p d ?_
  unfold updAttr at h
  cases hd : f.dc with
  | none => rw [hd] at h; cases h
  | some g =>
    rw [hd] at h
    cases h
    unfold rdRecs at hr ⊢
    rw [hd]
    exact hr

theorem Slots.mta {m : Meta} {j : Nat} {f' : Flash} (h : updMeta j m f = some f') (hs : Slots P f) : Slots P f' := by
  refine OfStore.keep f f' ?_ hs
  unfold updMeta at h
  cases hd : f.dm with
  | none => rw [hd] at h; cases h; rfl
  | some g => rw [hd] at h; cases h; rfl

theorem Slots.record {d : Dc} {p : Nat} {f' : Flash} (h : updRec p d f = some f')
    (hd : d.deleted = false → ∀ k, (∀ recs, rdRecs f = some recs → p < recs.length → k = p) → P k d.cid) (hs : Slots P f) : Slots P f' := by
  intro recs k e hr hl
  unfold updRec at h
  cases hdc : f.dc with
  | none =>
    rw [hdc] at h
    cases h
    cases hr
    obtain ⟨h1, h2⟩ := hl
    cases k with
    | zero =>
      cases h1
      exact hd h2 0 fun recs hr => by
        unfold rdRecs at hr
        rw [hdc] at hr
        cases hr
    | succ k => cases h1
  | some g =>
    rw [hdc] at h
    cases h
    cases hr
    obtain ⟨h1, h2⟩ := hl
    have hrf : rdRecs f = some g.recs := by unfold rdRecs; rw [hdc]; rfl
    unfold setAt at h1
    by_cases hp : p < g.recs.length
    · rw [if_pos hp, List.getElem?_set] at h1
      by_cases hk : p = k
      · subst hk
        rw [if_pos rfl, if_pos hp] at h1
        cases h1
        exact hd h2 p fun _ _ _ => rfl
      · rw [if_neg hk] at h1
        exact hs g.recs k e hrf ⟨h1, h2⟩
    · rw [if_neg hp] at h1
      by_cases hk : k < g.recs.length
      · rw [List.getElem?_append_left hk] at h1
        exact hs g.recs k e hrf ⟨h1, h2⟩
      · rw [List.getElem?_append_right (by omega)] at h1
        cases hz : k - g.recs.length with
        | zero =>
          rw [hz] at h1
          cases h1
          exact hd h2 k fun recs hr hlt => by
            rw [hrf] at hr
            cases hr
            exact absurd hlt hp
        | succ n => rw [hz] at h1; cases h1

macro "slots" : tactic => `(tactic| first
  | (intro _ _ _ h; exact Slots.attr h)
  | (intro _ _ _ h; exact Slots.mta h)
  | (intro _ _ _ h; exact Slots.record h (fun e => Bool.noConfusion e))
  | (intro _ _; exact id))

theorem slots_consistency : Rel (Keeps (Slots P)) consistency := by
  unfold consistency
  rels (slots)

theorem slots_mcStore {q : McReq} {cid : Bytes} (h : ∀ k, P k cid) : Rel (Keeps (Slots P)) (mcStore q cid) := by
  unfold mcStore
  rels (first | (intro _ _ _ h'; exact Slots.record h' fun _ k _ => h k) | slots)

theorem slots_cmDelete {q : CmReq} {n : Byte} : Rel (Keeps (Slots P)) (cmDelete q n) := by
  unfold cmDelete cmFind
  rels (slots)

theorem slots_cmUpdate {q : CmReq} {n : Byte} : Rel (Keeps (Slots P)) (cmUpdate q n) := by
  refine keeps_of (R := Secret) (by unfold cmUpdate cmFind; rels (secrets)) fun A f r hs => ?_
  unfold cmUpdate
  cases hrecs : rdRecs f with
  | none =>
    apply wp_bind
    unfold cmFind
    apply wp_bind
    apply wp_get
    apply wp_bind
    apply wp_failIf
    · intro _; exact hs
    intro _
    apply wp_bind
    apply wp_failIf
    · intro _; exact hs
    intro _
    apply wp_bind
    apply wp_rdOr
    · intro b hb; rw [hrecs] at hb; cases hb
    all_goals intro _; exact hs
  | some recs =>
    apply wp_bind
    apply find_cmFind hrecs
    · intro d p r' hd hc
      have hpl : p < recs.length := (List.getElem?_eq_some_iff.mp hd.1).1
      show wp A _ _ _ _ f r'
      apply wp_bind
      apply wp_failIf
      · intro _; exact hs
      intro _
      apply wp_bind
      apply wp_wrOr
      · intro f' h
        apply wp_pure
        refine Slots.record h (fun _ k hk => ?_) hs
        rw [hk recs hrecs hpl]
        exact hs recs p d hrecs hd
      all_goals intro _; exact hs
    · intro _ _; exact hs
    · intro _; exact hs

/-! ### All commands -/

section
variable {S : Flash → Prop} [OfStore S] (x : Ext) (i : In)

/-- A command other than a reset keeps a property of the store that the steps that change the store keep. -/
theorem keeps_handle (q : Req) (hq : q ≠ .reset) (h : Rel (Keeps S) consistency)
    (hmc : ∀ q' uv, q = .mc (.ok q') → Rel (Keeps S) (mcFinish x i q' uv))
    (h6 : ∀ q' n, q = .cm (.ok q') → q'.sub = 6 → Rel (Keeps S) (cmDelete q' n))
    (h7 : ∀ q' n, q = .cm (.ok q') → Rel (Keeps S) (cmUpdate q' n)) : Rel (Keeps S) (handle x i q) := by
  cases q with
  | mc q => exact keeps_makeCredential x i q h fun q' uv e => hmc q' uv (by rw [e])
  | ga q => exact keeps_getAssertion x i q h
  | gna => exact keeps_keep (kp_getNext x i)
  | info => exact keeps_keep (Rel.bind (kp_same same_hasPin) fun _ => Rel.pure _)
  | cp q => exact keeps_keep (kp_clientPin x i q)
  | reset => exact absurd rfl hq
  | cm q => exact keeps_credMgmt x i q h (fun q' n e => h6 q' n (by rw [e])) fun q' n e => h7 q' n (by rw [e])
  | sel => exact keeps_keep (Rel.bind (kp_same (same_wait _ _)) fun _ => Rel.pure _)
  | lb q => exact keeps_keep (kp_largeBlobs x i q)
  | other c => exact Rel.fail _

/-- The same for operations. -/
theorem keeps_step (s : St) (op : Op) (env : Env) (hr : op.resets = false) (hp : op.powers = true → noFail env)
    (hl : s.flash.lb.isSome = true) (h : Rel (Keeps S) consistency)
    (hmc : ∀ i q' uv, op = .cbor i (.mc (.ok q')) → Rel (Keeps S) (mcFinish x i q' uv))
    (h6 : ∀ i q' n, op = .cbor i (.cm (.ok q')) → q'.sub = 6 → Rel (Keeps S) (cmDelete q' n))
    (h7 : ∀ q' n, Rel (Keeps S) (cmUpdate q' n)) (hs : S s.flash) : S (step x s op env).1.flash := by
  have frame : ∀ {α : Type} (m : M α) (g' : α → Out), Rel Keep m → S (exec m g' s env).1.flash := by
    intro α m g' hm
    exact exec_wp (P := fun p : St × Out => S p.1.flash) (A := fun _ => True) (fun _ => trivial)
      (keeps_keep (S := S) hm _ _ _) (fun _ _ _ h => h hs) (fun _ _ _ h => h hs) (fun _ _ _ h => h hs) (fun _ _ h => h hs)
  cases op with
  | powerOn i =>
    have : (step x s (.powerOn i) env).1.flash = s.flash := by
      unfold step
      exact exec_wp (P := fun p : St × Out => p.1.flash = s.flash) (A := (· ≠ .fail)) (hp rfl)
        (secret_install i s.flash Ram.init hl) (fun _ _ _ h => h) (fun _ _ _ h => h) (fun _ _ _ h => h) (fun _ _ h => h)
    rw [this]
    exact hs
  | u2f i q => exact frame (u2f x i q) .u2f (kp_u2f x i q)
  | adminReset i => cases hr
  | installKey k => exact frame (installKeyM k) (fun _ => .done) (by unfold installKeyM; rels (keeps))
  | installCert k =>
    refine frame (installCertM k) (fun _ => .done) ?_
    unfold installCertM
    refine Rel.wrOr ?_
    intro f r f' h
    cases h
    exact ⟨rfl, rfl⟩
  | writeSm2 k => exact frame (writeSm2M k) (fun _ => .done) (by unfold writeSm2M; rels (keeps))
  | cbor i q =>
    have hq : q ≠ .reset := by
      rintro rfl
      cases hr
    exact cbor_wp (s := s) (i := i) (q := q) (env := env) (P := fun p : St × Out => S p.1.flash)
      (A := fun _ => True) (fun _ => trivial) (keeps_handle (S := S) x i q hq h (fun q' uv e => hmc i q' uv (by rw [e]))
        (fun q' n e => h6 i q' n (by rw [e])) (fun q' n _ => h7 q' n) _ _ _)
      (fun _ _ _ h => h hs) (fun _ _ _ h => h hs) (fun _ _ _ h => h hs) (fun _ _ h => h hs)

end

/-! ### The two properties -/

theorem makeCid_nonce {kh rnd rp : Bytes} {dc cp : Byte} {alg : UInt32} (ht : ∀ k m, (x.hmac k m).length = 32)
    (hr : rnd.length = 16) (hp : rp.length = 32) : (Cid.nonce (makeCid x kh rnd dc cp rp alg)).take 16 = rnd := by
  have htl : (khTag x kh (rnd ++ [dc, cp]) rp).length = 16 := by
    unfold khTag
    rw [List.length_take, ht]
    rfl
  have := (cid_parts (a := le32 alg) (dc := dc) (cp := cp) htl hr hp).2.1
  simp only [makeCid]
  rw [this, List.take_left' hr]

theorem mcFinish_cid (i : In) (q : McReq) (uv : Bool) (hm : ∀ k m, (x.hmac k m).length = 32) (hn : i.rndNonce.length = 16)
    (hp : q.rpHash.length = 32) (S : Flash → Prop) [OfStore S]
    (h : ∀ c, Cid.rp c = q.rpHash → (Cid.nonce c).take 16 = i.rndNonce → q.rk = .yes → Rel (Keeps S) (mcStore q c)) : Rel (Keeps S) (mcFinish x i q uv) := by
  refine keeps_of (R := Secret) (sc_mcFinish x i q uv) fun A f r hs => ?_
  unfold mcFinish
  apply wp_bind
  apply wp_failIf
  · intro _; exact hs
  intro _
  apply wp_bind
  have hk1 := keeps_keep (S := S) (kp_makeAuthData x i q.rpHash (0x41 ||| (if mcExt q then 0x80 else 0) ||| (if uv then 0x04 else 0)) q.alg
    (if q.rk == .yes then 1 else 0) q.protect) A f r
  have hk2 : wp A (makeAuthData x i q.rpHash (0x41 ||| (if mcExt q then 0x80 else 0) ||| (if uv then 0x04 else 0)) q.alg
    (if q.rk == .yes then 1 else 0) q.protect) (fun a _ _ => Cid.rp (a.att.getD []) = q.rpHash ∧ (Cid.nonce (a.att.getD [])).take 16 = i.rndNonce)
      (fun _ _ _ => True) (fun _ _ => True) f r := by
    apply wp_authData
    intro c f' _ _
    refine ⟨fun _ kh _ _ => ⟨(makeCid_parts hm hn hp).2.2.1, ?_⟩, fun h => absurd h (mcFlags _ _).1⟩
    exact makeCid_nonce hm hn hp
  refine wp_mono (wp_and hk1 hk2) ?_ (fun _ _ _ h => h.1 hs) (fun _ _ h => h.1 hs)
  rintro ad f1 r1 ⟨k1, k2, k3⟩
  have tail : Rel (Keeps S) (do
      let _ ← Cmd.rdOr (rdCert (·.key)) (.code Code.unhandled)
      let _ ← Cmd.rdOr (rdCert (fun c => some c.data)) (.code Code.unhandled)
      let lbk ← if q.lbk then (do let k ← largeBlobKey x (ad.att.getD []); pure (some k)) else pure none
      return Resp.mc ⟨ad, q.credBlob.map fun b => b.length ≤ 32 && q.rk == .yes,
        if q.protect != 0 then some q.protect else none, q.hmacSecret, q.cdh, lbk⟩) := by
    apply keeps_keep
    rels (first | exact kp_same (same_largeBlobKey x _) | keeps)
  have fin : ∀ {f : Flash} {r : Ram}, S f → _ := fun {f r} (hs : S f) =>
    wp_mono (tail A f r) (fun _ f' _ h => h hs) (fun _ f' _ h => h hs) (fun f' _ h => h hs) (Q' := fun _ f' _ => S f') (E' := fun _ f' _ => S f') (X' := fun f' _ => S f')
  by_cases hrk : q.rk = .yes
  · rw [if_pos (by simp [hrk])]
    apply wp_bind
    exact wp_mono (h _ k2 k3 hrk A f1 r1) (fun _ _ _ h => fin (h (k1 hs))) (fun _ _ _ h => h (k1 hs)) (fun _ _ h => h (k1 hs))
  · rw [if_neg (by simp [hrk])]
    exact fin (k1 hs)

/-- A stored credential: where it is, and that no other one has its nonce. -/
structure Held (c uid : Bytes) (p : Nat) (f : Flash) : Prop where
  safe : SafeAt c uid p f
  only : Slots (fun k c' => Cid.nonce c' = Cid.nonce c → k = p) f

/-- A new credential is stored, if it has a nonce of its own. -/
theorem new_mcStore {K : Prop} {q : McReq} {cid : Bytes} (g : Good K f) (hs : Settled f)
    (hnew : Slots (fun _ c' => Cid.nonce c' ≠ Cid.nonce cid) f) :
    wp A (mcStore q cid) (fun _ f' _ => ∃ p, Held cid q.user.id p f') (fun _ _ _ => True) (fun _ _ => True) f r := by
  obtain ⟨recs, ms, a, g⟩ := g
  obtain ⟨a', ha, h1, h2⟩ := hs
  rw [g.attr] at ha
  cases ha
  have hlen : recs.length ≤ 64 := g.inv.len
  unfold mcStore
  apply wp_bind
  apply wp_rd (show (fun f => (rdRecs f).map (·.length)) f = some recs.length by simp [g.recs]) ?_ (fun _ => trivial) (fun _ => trivial)
  apply wp_bind
  apply wp_scanUp g.recs (fun _ => trivial) (fun _ => trivial) (by omega)
  rw [List.drop_zero]
  have hslot := foldUp_slot q.rpHash q.user.id recs 0 none
  generalize foldUp (slotBody q.rpHash q.user.id) recs 0 none = e at hslot
  obtain ⟨fd, p0⟩ := e
  show wp A _ _ _ _ f r
  dsimp only at hslot ⊢
  have slot : ∀ p, p = (if p0 == recs.length then fd.getD p0 else p0) → p ≤ recs.length := by
    intro p hp
    rcases hslot with ⟨k, d, e1, e2, e3, e4, e5, e6⟩ | ⟨e1, e2⟩
    · rw [Nat.zero_add] at e1
      cases e1
      rw [if_neg (by simp; omega)] at hp
      omega
    · rw [Nat.zero_add] at e1
      subst e1
      rw [if_pos (by simp)] at hp
      cases hfd : fd with
      | none =>
        rw [hfd] at hp
        have hp' : p = recs.length := hp
        omega
      | some p1 =>
        rw [hfd] at hp e2
        have hp' : p = p1 := hp
        rcases e2 p1 rfl with e3 | ⟨k, d, e3, e4, e5⟩
        · cases e3
        · have hkl : k < recs.length := (List.getElem?_eq_some_iff.mp e4).1
          omega
  generalize (if p0 == recs.length then fd.getD p0 else p0) = p at slot
  have hple := slot p rfl
  apply wp_bind
  apply wp_failIf
  · intro _; trivial
  intro hp
  have hp : p < 64 := by simpa using hp
  apply wp_bind
  apply wp_rd g.attr ?_ (fun _ => trivial) (fun _ => trivial)
  apply wp_bind
  apply wp_wr (updAttr_eq g.dc _) ?_ (fun _ => trivial) (fun _ => trivial)
  apply wp_bind
  apply wp_wr (updRec_eq rfl _ _) ?_ (fun _ => trivial) (fun _ => trivial)
  generalize hdd : (⟨cid, q.user, false, q.lbk,
    match q.credBlob with
    | some b => if b.length ≤ 32 then b else []
    | none => []⟩ : Dc) = d
  have hdc : d.cid = cid := by rw [← hdd]
  have hdu : d.user = q.user := by rw [← hdd]
  have hdel : d.deleted = false := by rw [← hdd]
  -- what is known from here on
  have goal : ∀ {f' : Flash} {oa : Option Attr}, f'.dc = some ⟨setAt recs p d, oa⟩ →
      ∀ b, b.add = false → b.del = false → ∀ f'', updAttr b f' = some f'' → ∃ p, Held cid q.user.id p f'' := by
    intro f' oa hf b hb1 hb2 f'' hf''
    rw [updAttr_eq hf] at hf''
    cases hf''
    refine ⟨p, ⟨_, b, d, rfl, ⟨by rw [getElem?_setAt hple, if_pos rfl], hdel⟩, hdc, by rw [hdu],
      (fun h => by rw [hb1, hb2] at h; cases h), length_setAt hple 64 hp hlen⟩, ?_⟩
    intro recs' k e hr hl hn
    cases hr
    obtain ⟨hl1, hl2⟩ := hl
    dsimp only at hl1
    rw [getElem?_setAt hple] at hl1
    by_cases hk : k = p
    · exact hk
    · rw [if_neg hk] at hl1
      exact absurd hn (hnew recs k e g.recs ⟨hl1, hl2⟩)
  have keep : ∀ {α : Type} {m : M α} {n : α → M Unit} {f' : Flash} {r' : Ram}, (∃ oa, f'.dc = some ⟨setAt recs p d, oa⟩) → Rel Keep m →
      (∀ a f' r', (∃ oa, f'.dc = some ⟨setAt recs p d, oa⟩) →
        wp A (n a) (fun _ f' _ => ∃ p, Held cid q.user.id p f') (fun _ _ _ => True) (fun _ _ => True) f' r') →
      wp A (m >>= n) (fun _ f' _ => ∃ p, Held cid q.user.id p f') (fun _ _ _ => True) (fun _ _ => True) f' r' := by
    intro α m n f' r' hf hm hn
    apply wp_bind
    refine wp_mono (hm A f' r') (fun a f'' r'' k => hn a f'' r'' ?_) (fun _ _ _ _ => trivial) (fun _ _ _ => trivial)
    obtain ⟨oa, hf⟩ := hf
    exact ⟨oa, k.1.trans hf⟩
  refine keep ⟨_, rfl⟩ (Rel.rdOr _ _) fun k f1 r1 hf1 => ?_
  refine keep hf1 (Rel.scanUp _ _ _ _ _) fun k' f2 r2 hf2 => ?_
  obtain ⟨⟨fm, m⟩, j⟩ := k'
  dsimp only
  apply wp_bind
  refine wp_wrOr ?_ (fun _ => trivial) (fun _ => trivial) (fun _ => trivial)
  intro f3 hf3
  have hdc3 : f3.dc = f2.dc := by
    unfold updMeta at hf3
    cases hd : f2.dm with
    | none => rw [hd] at hf3; cases hf3; rfl
    | some g => rw [hd] at hf3; cases hf3; rfl
  obtain ⟨oa, hf2⟩ := hf2
  refine wp_wrOr ?_ (fun _ => trivial) (fun _ => trivial) (fun _ => trivial)
  intro f4 hf4
  exact goal (hdc3.trans hf2) { a with index := UInt8.ofNat p, add := false, numbers := a.numbers + 1 } rfl h2 f4 hf4

/-- A credential that is deleted is gone. -/
theorem gone_cmDelete {c : Bytes} {p : Nat} {q : CmReq} {n : Byte} (hq : q.cid = c)
    (hs : Slots (fun k c' => Cid.nonce c' = Cid.nonce c → k = p) f) :
    wp A (cmDelete q n) (fun _ f' _ => Slots (fun _ c' => Cid.nonce c' ≠ Cid.nonce c) f') (fun _ _ _ => True) (fun _ _ => True) f r := by
  unfold cmDelete
  apply wp_bind
  cases hrecs : rdRecs f with
  | none =>
    unfold cmFind
    apply wp_bind
    apply wp_get
    apply wp_bind
    apply wp_failIf
    · intro _; trivial
    intro _
    apply wp_bind
    apply wp_failIf
    · intro _; trivial
    intro _
    apply wp_bind
    apply wp_rdOr
    · intro b hb; rw [hrecs] at hb; cases hb
    all_goals intro _; trivial
  | some recs =>
    apply find_cmFind hrecs ?_ (fun _ _ => trivial) (fun _ => trivial)
    intro d p' r' hd hc
    have hpl : p' < recs.length := (List.getElem?_eq_some_iff.mp hd.1).1
    have hpp : p' = p := hs recs p' d hrecs hd (by rw [hc, hq])
    subst hpp
    show wp A _ _ _ _ f r'
    apply wp_bind
    refine wp_rdOr ?_ (fun _ => trivial) (fun _ => trivial) (fun _ => trivial)
    intro a ha
    apply wp_bind
    refine wp_wrOr ?_ (fun _ => trivial) (fun _ => trivial) (fun _ => trivial)
    intro f1 hf1
    apply wp_bind
    refine wp_wrOr ?_ (fun _ => trivial) (fun _ => trivial) (fun _ => trivial)
    intro f2 hf2
    have hgone : Slots (fun _ c' => Cid.nonce c' ≠ Cid.nonce c) f2 := by
      cases hdc : f.dc with
      | none => unfold rdRecs at hrecs; rw [hdc] at hrecs; cases hrecs
      | some g =>
        have hg : g.recs = recs := by unfold rdRecs at hrecs; rw [hdc] at hrecs; exact Option.some.inj hrecs
        have e1 : f1.dc = some { g with attr := some { a with index := UInt8.ofNat p', del := true } } := by
          unfold updAttr at hf1
          rw [hdc] at hf1
          cases hf1
          rfl
        unfold updRec at hf2
        rw [e1] at hf2
        cases hf2
        intro recs' k e hr hl hn
        cases hr
        obtain ⟨hl1, hl2⟩ := hl
        dsimp only at hl1
        rw [hg, getElem?_setAt (by omega)] at hl1
        by_cases hk : k = p'
        · rw [if_pos hk] at hl1
          cases hl1
          cases hl2
        · rw [if_neg hk] at hl1
          exact hk (hs recs k e hrecs ⟨hl1, hl2⟩ hn)
    have tail : ∀ {m : M Resp} {r : Ram}, Rel (Keeps (Slots (fun _ c' => Cid.nonce c' ≠ Cid.nonce c))) m →
        wp A m (fun _ f' _ => Slots (fun _ c' => Cid.nonce c' ≠ Cid.nonce c) f') (fun _ _ _ => True) (fun _ _ => True) f2 r :=
      fun h => wp_mono (h A f2 _) (fun _ _ _ h => h hgone) (fun _ _ _ _ => trivial) (fun _ _ _ => trivial)
    apply tail
    rels (slots)

end Verif.Ctap
