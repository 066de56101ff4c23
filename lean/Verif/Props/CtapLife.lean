import Verif.Spec.CtapLife
import Verif.Spec.CtapToy
import Verif.Lemmas.CtapSlots
import Verif.Lemmas.CtapLive
/-
C86: a FIDO credential works until it is deleted or replaced. C87: a deleted one is gone.
-/
namespace Verif.Ctap
open Cmd

variable {x : Ext}

/-! ### What keeps a credential -/

theorem keeps_and {α : Type} {S T : Flash → Prop} {m : M α} (h1 : Rel (Keeps S) m) (h2 : Rel (Keeps T) m) : Rel (Keeps fun f => S f ∧ T f) m := by
  intro A f r
  exact wp_mono (wp_and (h1 A f r) (h2 A f r)) (fun _ _ _ h s => ⟨h.1 s.1, h.2 s.2⟩) (fun _ _ _ h s => ⟨h.1 s.1, h.2 s.2⟩)
    (fun _ _ h s => ⟨h.1 s.1, h.2 s.2⟩)

instance {c uid : Bytes} {p : Nat} : OfStore (Held c uid p) where
  keep f f' h hs := ⟨OfStore.keep f f' h hs.1, OfStore.keep f f' h hs.2⟩

theorem keeps_held {α : Type} {c uid : Bytes} {p : Nat} {m : M α} (h1 : Rel (Keeps (SafeAt c uid p)) m)
    (h2 : Rel (Keeps (Slots (fun k c' => Cid.nonce c' = Cid.nonce c → k = p))) m) : Rel (Keeps (Held c uid p)) m :=
  (keeps_and h1 h2).mono fun _ _ _ _ h s => ⟨(h ⟨s.1, s.2⟩).1, (h ⟨s.1, s.2⟩).2⟩

theorem held_consistency {c uid : Bytes} {p : Nat} : Rel (Keeps (Held c uid p)) consistency :=
  keeps_held (keeps_of (R := Secret) (by unfold consistency; rels (secrets)) fun _ _ _ => safe_consistency) slots_consistency

/-- A stored credential stays stored in every operation that is not meant to end its life. -/
theorem held_step (hm : ∀ k m, (x.hmac k m).length = 32) {c uid : Bytes} {p : Nat} (s : St) (op : Op) (env : Env) (hr : op.resets = false)
    (hp : op.powers = true → noFail env) (hz : op.sized) (hl : s.flash.lb.isSome = true)
    (he : ¬ op.ends c uid) (hd : ¬ op.draws ((Cid.nonce c).take 16)) (hs : Held c uid p s.flash) : Held c uid p (step x s op env).1.flash := by
  refine keeps_step x s op env hr hp hl held_consistency ?_ ?_ ?_ hs
  · rintro i q uv rfl
    refine mcFinish_cid i q uv hm hz.1 hz.2 _ fun c' h1 h2 h3 => keeps_held ?_ ?_
    · refine keeps_of (R := Secret) (sc_stored (st_mcStore q c')) fun _ _ _ hs => safe_mcStore hs fun h => he ⟨h3, h⟩
    · refine slots_mcStore fun k hn => absurd ?_ hd
      show i.rndNonce = _
      rw [← h2, hn]
  · rintro i q n rfl h6
    refine keeps_held (keeps_of (R := Secret) (by unfold cmDelete cmFind; rels (secrets)) fun _ _ _ hs => safe_cmDelete hs fun h => he ⟨h6, h⟩) slots_cmDelete
  · intro q n
    exact keeps_held (keeps_of (R := Secret) (by unfold cmUpdate cmFind; rels (secrets)) fun _ _ _ hs => safe_cmUpdate hs) slots_cmUpdate

/-! ### Assertions -/

/-- Recovery when nothing fails. -/
theorem ok_consistency {f : Flash} {r : Ram} (g : Good False f) {S : Flash → Prop} (hS : Rel (Keeps S) consistency) (hs : S f) :
    wp allOk consistency (fun _ f' r' => S f' ∧ f'.cert = f.cert ∧ r' = r) (fun _ _ _ => False) (fun _ _ => False) f r := by
  have base : wp allOk consistency (fun _ _ _ => True) (fun _ _ _ => False) (fun _ _ => False) f r := by
    obtain ⟨recs, ms, a, g⟩ := g
    by_cases hq : (a.add || a.del) = true
    · exact wp_mono (wp_recover g hq (A := allOk) (fun h => by cases h)) (fun _ _ _ _ => trivial) (fun _ _ _ h => h) (fun _ _ h => by cases h.1)
    · unfold consistency
      apply wp_bind
      apply wp_rd g.attr
      · rw [if_neg hq]
        exact wp_pure trivial
      · intro h; cases h
      · intro h; cases h
  refine wp_mono (wp_and base (wp_and (hS allOk f r) (st_consistency allOk f r))) ?_ (fun _ _ _ h => h.1) (fun _ _ h => h.1)
  rintro _ f' r' ⟨_, h1, h2⟩
  exact ⟨h1 hs, h2.cert, h2.ram⟩

theorem rdCert_of {α : Type} {look : Cert → Option α} {f f' : Flash} (h : f'.cert = f.cert) : rdCert look f' = rdCert look f := by
  unfold rdCert
  rw [h]

/-- An assertion with a credential of this device works, if the credential is not a resident one or is stored, when
the storage has no errors, from any state that a history leads to. -/
theorem ga_works {s : St} {i : In} {q : GaReq} {c kh : Bytes} {uv : Bool} {n : UInt32} {env : Env} (he : ∀ k, env k = .ok)
    (g : Good False s.flash) (hk : rdCert (·.kh) s.flash = some kh) (ha : Authentic x kh c) (hlen : c.length = 70)
    (hn : s.flash.counter = some n) (hhe : rdCert (·.he) s.flash ≠ none)
    (hdc : Cid.dc c ≠ 0 → ∃ uid p, Held c uid p s.flash) (hq : Asks x s i q c uv) :
    (step x s (.cbor i (.ga (.ok q))) env).2.asserts x kh c q uv (n + 1) := by
  -- what the store must keep during recovery
  let S : Flash → Prop := fun f => Cid.dc c ≠ 0 → ∃ uid p, Held c uid p f
  have hS : Rel (Keeps S) consistency := by
    intro A f r
    by_cases hd : Cid.dc c = 0
    · refine wp_mono (st_consistency A f r) ?_ ?_ ?_ <;> intros <;> intro _ h <;> exact absurd hd h
    · by_cases hs : S f
      · obtain ⟨uid, p, h⟩ := hs hd
        exact wp_mono (held_consistency (c := c) (uid := uid) (p := p) A f r) (fun _ _ _ k _ _ => ⟨uid, p, k h⟩) (fun _ _ _ k _ _ => ⟨uid, p, k h⟩)
          (fun _ _ k _ _ => ⟨uid, p, k h⟩)
      · refine wp_mono (st_consistency A f r) ?_ ?_ ?_ <;> intros <;> intro h <;> exact absurd h hs
  have hfin : ∀ f r, S f → f.cert = s.flash.cert → r.ga.req = q → r.ga.uv = uv → r.ga.up = false → r.ga.ctr = 0 → r.sm2 = s.ram.sm2 → r.ka = s.ram.ka →
      wp allOk (gaFinish x i) (fun a _ _ => Out.asserts x kh c q uv (n + 1) (.resp a)) (fun _ _ _ => False) (fun _ _ => False) f r := by
    intro f r hs hc hreq huv hup hctr hsm hka
    have hk' : rdCert (·.kh) f = some kh := (rdCert_of hc).trans hk
    obtain ⟨pre, post, hal, hpre⟩ := hq.allow
    have hpos : q.allow.length > 0 := by rw [hal, List.length_append, List.length_cons]; omega
    have hpr : protectOk c true uv = true := by
      unfold protectOk
      by_cases h2 : Cid.cp c = 2
      · simp [h2]
      · by_cases h3 : Cid.cp c = 3
        · simp [h3, hq.protect h3]
        · simp [h2, h3]
    have halg : algOk s.ram.sm2 (Cid.alg c) = true := by
      unfold algOk
      rcases hq.alg with h | h | ⟨h, h'⟩
      · simp [h]
      · simp [h]
      · simp [h, ← h']
    unfold gaFinish
    apply wp_bind
    unfold gaSelect
    apply wp_bind
    apply wp_get
    wzeta
    rw [hreq, if_pos hpos, hal]
    apply wp_bind
    rw [huv]
    refine wp_mono (ok_gaAllow (pre := pre) (post := post) hk' ha hlen hq.rp.symm hpr ?_ ?_ Dc.zero) ?_ (fun _ _ _ h => h) (fun _ _ h => h)
    · intro hd
      obtain ⟨uid, p, ⟨recs, a, d, e1, e2, e3, e4, _⟩, ho⟩ := hs hd
      have hrecs : rdRecs f = some recs := by unfold rdRecs; rw [e1]; rfl
      refine ⟨recs, p, d, hrecs, e2, e3, fun p' d' hl _ hn => ?_⟩
      have := ho recs p' d' hrecs hl hn
      subst this
      have := Option.some.inj (e2.1.symm.trans hl.1)
      subst this
      exact e3
    · intro e he
      exact ⟨(hpre e he).1, (hpre e he).2 kh hk⟩
    rintro ⟨d, key⟩ f' r' ⟨rfl, rfl, hdc, hkey⟩
    dsimp only at hdc hkey
    subst hkey
    apply wp_bind
    apply wp_mod
    apply wp_pure
    apply wp_bind
    apply wp_get
    show wp allOk _ _ _ _ _ _
    wzeta
    have hcnt : f'.counter = some n := by
      unfold Flash.counter at hn ⊢
      rw [hc]
      exact hn
    have rest : ∀ r1 : Ram, r1.ga.uv = uv → r1.sm2 = s.ram.sm2 → r1.ga.ctr = 0 → r1.ka = s.ram.ka → ((r1.ga.up = true) ↔ q.up ≠ .no) →
        wp allOk (gaRest x i q d (khPri x kh (Cid.nonce c)) true) (fun a _ _ => Out.asserts x kh c q uv (n + 1) (.resp a))
          (fun _ _ _ => False) (fun _ _ => False) f' r1 := by
      intro r1 h1 h2 hz1 hk1 h3
      refine wp_mono (ok_gaRest (fun h e => ⟨hz1, h3.mpr (hq.hs h e).1, hk1 ▸ (hq.hs h e).2⟩) ?_ hcnt ?_ ?_) ?_ (fun _ _ _ h => h) (fun _ _ h => h)
      · rw [hdc, h1]
        simpa [hpos] using hpr
      · rw [h2, hdc]
        exact halg
      · rw [rdCert_of hc]
        exact hhe
      · rintro a _ _ ⟨g, rfl, e1, e2, e3, e4, e5, e6, e7, e8⟩
        exact ⟨g, rfl, e1.trans hdc, e2, by rw [e3, hdc], e4, e5, e6, e7.trans h1, by rw [e8]; exact h3⟩
    have hfst : (r'.ga.ctr == 0) = true := by rw [hctr]; rfl
    rw [hreq, hfst]
    apply wp_ite <;> intro hu
    · have hu : q.up ≠ .no := by simpa using hu
      have hpres : i.present := hq.up.resolve_left hu
      apply wp_bind
      refine wp_mono (ok_takePresence hpres) ?_ (fun _ _ _ h => h) (fun _ _ h => h)
      rintro _ f2 r2 ⟨rfl, t, rfl⟩
      apply wp_bind
      apply wp_mod
      exact rest _ huv hsm hctr hka (by simp [hu])
    · have hu : q.up = .no := by simpa using hu
      refine rest _ huv hsm hctr hka ?_
      show r'.ga.up = true ↔ _
      rw [hup, hu]
      simp
  refine cbor_wp (P := fun o : St × Out => o.2.asserts x kh c q uv (n + 1)) (A := allOk) he
    (Q := fun a _ _ => Out.asserts x kh c q uv (n + 1) (.resp a)) (E := fun _ _ _ => False) (X := fun _ _ => False) ?_
    (fun _ _ _ h => h) (fun _ _ _ h => h.elim) (fun _ _ _ h => h.elim) (fun _ _ h => h.elim)
  show wp allOk (getAssertion x i (.ok q)) _ _ _ _ _
  unfold getAssertion
  apply wp_bind
  apply wp_mod
  apply wp_bind
  refine wp_mono (ok_consistency g hS hdc) ?_ (fun _ _ _ h => h) (fun _ _ h => h)
  rintro _ f1 r1 ⟨hs1, hc1, rfl⟩
  apply wp_bind
  apply wp_mod
  apply wp_bind
  refine wp_mono (ok_gaCheck (uv := uv) hq.rk ?_) ?_ (fun _ _ _ h => h) (fun _ _ h => h)
  · cases huv : uv with
    | false => exact Or.inl ⟨rfl, hq.plain huv⟩
    | true =>
      obtain ⟨h1, h2, h3, h4, h5⟩ := hq.verified huv
      exact Or.inr ⟨rfl, by rw [rdCert_of hc1]; exact h1, h2, h3, h4, h5⟩
  · rintro _ f2 r2 ⟨rfl, hga, hsm, hka⟩
    exact hfin _ _ hs1 hc1 (by rw [hga]) (by rw [hga]) (by rw [hga]) (by rw [hga]) hsm hka

/-! ### Registration -/

theorem new_mcFinish {A : Fault → Prop} {f : Flash} {r : Ram} (i : In) (q : McReq) (uv : Bool) (hm : ∀ k m, (x.hmac k m).length = 32) (hn : i.rndNonce.length = 16)
    (hp : q.rpHash.length = 32) (hrk : q.rk = .yes) (g : Good False f) (hs : Settled f)
    (hnew : Slots (fun _ c' => (Cid.nonce c').take 16 ≠ i.rndNonce) f) :
    wp A (mcFinish x i q uv) (fun a f' _ => ∃ m c p, a = .mc m ∧ m.ad.att = some c ∧ Held c q.user.id p f')
      (fun _ _ _ => True) (fun _ _ => True) f r := by
  unfold mcFinish
  apply wp_bind
  apply wp_failIf
  · intro _; trivial
  intro _
  apply wp_bind
  have hk1 := kp_makeAuthData x i q.rpHash (0x41 ||| (if mcExt q then 0x80 else 0) ||| (if uv then 0x04 else 0)) q.alg
    (if q.rk == .yes then 1 else 0) q.protect A f r
  have hk2 : wp A (makeAuthData x i q.rpHash (0x41 ||| (if mcExt q then 0x80 else 0) ||| (if uv then 0x04 else 0)) q.alg
    (if q.rk == .yes then 1 else 0) q.protect) (fun a _ _ => ∃ c, a.att = some c ∧ (Cid.nonce c).take 16 = i.rndNonce)
      (fun _ _ _ => True) (fun _ _ => True) f r := by
    apply wp_authData
    intro c f' _ _
    exact ⟨fun _ kh _ _ => ⟨_, rfl, makeCid_nonce hm hn hp⟩, fun h => absurd h (mcFlags _ _).1⟩
  refine wp_mono (wp_and hk1 hk2) ?_ (fun _ _ _ _ => trivial) (fun _ _ _ => trivial)
  rintro ad f1 r1 ⟨k1, c, hat, hnc⟩
  rw [if_pos (by simp [hrk])]
  apply wp_bind
  rw [hat]
  dsimp only [Option.getD_some]
  have hnew1 : Slots (fun _ c' => Cid.nonce c' ≠ Cid.nonce c) f1 := by
    intro recs p d hr hl hnn
    refine OfStore.keep f f1 k1.1 hnew recs p d hr hl ?_
    rw [hnn, hnc]
  refine wp_mono (new_mcStore (g.keep k1) (hs.keep k1) hnew1) ?_ (fun _ _ _ _ => trivial) (fun _ _ _ => trivial)
  rintro _ f2 r2 ⟨p, hh⟩
  have fin : ∀ {α : Type} {m : M α} {n : α → M Resp} {f : Flash} {r : Ram}, Held c q.user.id p f → Rel Keep m →
      (∀ a f r, Held c q.user.id p f → wp A (n a) (fun a f' _ => ∃ m c p, a = .mc m ∧ m.ad.att = some c ∧ Held c q.user.id p f')
        (fun _ _ _ => True) (fun _ _ => True) f r) →
      wp A (m >>= n) (fun a f' _ => ∃ m c p, a = .mc m ∧ m.ad.att = some c ∧ Held c q.user.id p f')
        (fun _ _ _ => True) (fun _ _ => True) f r := by
    intro α m n f r hh hm hn
    apply wp_bind
    exact wp_mono (hm A f r) (fun a f' r' k => hn a f' r' (OfStore.keep f f' k.1 hh)) (fun _ _ _ _ => trivial) (fun _ _ _ => trivial)
  refine fin hh (Rel.rdOr _ _) fun _ f3 r3 hh => ?_
  refine fin hh (Rel.rdOr _ _) fun _ f4 r4 hh => ?_
  by_cases hl : q.lbk = true
  · rw [if_pos hl]
    refine fin hh (Rel.bind (kp_same (same_largeBlobKey x _)) fun _ => Rel.pure _) fun _ f5 r5 hh => ?_
    exact wp_pure ⟨_, c, p, rfl, hat, hh⟩
  · rw [if_neg hl]
    refine fin hh (Rel.pure _) fun _ f5 r5 hh => ?_
    exact wp_pure ⟨_, c, p, rfl, hat, hh⟩

theorem new_makeCredential {A : Fault → Prop} {f : Flash} {r : Ram} (i : In) (q : McReq) (hm : ∀ k m, (x.hmac k m).length = 32) (hn : i.rndNonce.length = 16)
    (hp : q.rpHash.length = 32) (hrk : q.rk = .yes) (g : Good False f) (hA : ¬ Settled f → ¬ A .fail)
    (hnew : Slots (fun _ c' => (Cid.nonce c').take 16 ≠ i.rndNonce) f) :
    wp A (makeCredential x i (.ok q)) (fun a f' _ => ∃ m c p, a = .mc m ∧ m.ad.att = some c ∧ Held c q.user.id p f')
      (fun _ _ _ => True) (fun _ _ => True) f r := by
  unfold makeCredential
  obtain ⟨recs, ms, a, g⟩ := g
  apply wp_bind
  refine wp_mono (wp_and (wp_consistency g hA) (slots_consistency (P := fun _ c' => (Cid.nonce c').take 16 ≠ i.rndNonce) A f r)) ?_
    (fun _ _ _ _ => trivial) (fun _ _ _ => trivial)
  rintro _ f1 r1 ⟨⟨⟨g1, hs1⟩, _⟩, hk1⟩
  have mid : ∀ {α : Type} {m : M α} {n : α → M Resp} {f : Flash} {r : Ram}, Rel Keep m →
      (Good False f ∧ Settled f ∧ Slots (fun _ c' => (Cid.nonce c').take 16 ≠ i.rndNonce) f) →
      (∀ a f' r', (Good False f' ∧ Settled f' ∧ Slots (fun _ c' => (Cid.nonce c').take 16 ≠ i.rndNonce) f') →
        wp A (n a) (fun a f' _ => ∃ m c p, a = .mc m ∧ m.ad.att = some c ∧ Held c q.user.id p f') (fun _ _ _ => True) (fun _ _ => True) f' r') →
      wp A (m >>= n) (fun a f' _ => ∃ m c p, a = .mc m ∧ m.ad.att = some c ∧ Held c q.user.id p f') (fun _ _ _ => True) (fun _ _ => True) f r := by
    intro α m n f r hm h hn
    apply wp_bind
    exact wp_mono (hm A f r) (fun a f' r' k => hn a f' r' ⟨h.1.keep k, h.2.1.keep k, OfStore.keep f f' k.1 h.2.2⟩) (fun _ _ _ _ => trivial) (fun _ _ _ => trivial)
  refine mid (kp_same (same_emptyAuth _ _)) ⟨g1, hs1, hk1 hnew⟩ fun _ f r h => ?_
  refine mid (by rels (keeps)) h fun _ f r h => ?_
  refine mid (by rels (keeps)) h fun _ f r h => ?_
  refine mid (by rels (keeps)) h fun _ f r h => ?_
  refine mid (kp_same same_hasPin) h fun p f r h => ?_
  refine mid (by rels (keeps)) h fun _ f r h => ?_
  have last : ∀ uv f r, (Good False f ∧ Settled f ∧ Slots (fun _ c' => (Cid.nonce c').take 16 ≠ i.rndNonce) f) →
      wp A (do mcExclude x i q uv q.exclude i.junk; takePresence i q.pinAuth; mcFinish x i q uv)
        (fun a f' _ => ∃ m c p, a = .mc m ∧ m.ad.att = some c ∧ Held c q.user.id p f') (fun _ _ _ => True) (fun _ _ => True) f r := by
    intro uv f r h
    refine mid (kp_same (same_mcExclude x i _ _ _ _)) h fun _ f r h => ?_
    refine mid (kp_takePresence i _) h fun _ f r h => ?_
    exact new_mcFinish i q uv hm hn hp hrk h.1 h.2.1 h.2.2
  apply wp_ite <;> intro _
  · exact last false f r h
  · exact mid (kp_mcAuth x i q) h fun uv f r h => last uv f r h

theorem new_step (hm : ∀ k m, (x.hmac k m).length = 32) {s : St} {i : In} {q : McReq} {env : Env} {m : McResp} {c : Bytes}
    (g : Good False s.flash) (hf : Fair s (.cbor i (.mc (.ok q)), env)) (hrk : q.rk = .yes)
    (hnew : Slots (fun _ c' => (Cid.nonce c').take 16 ≠ i.rndNonce) s.flash)
    (h : (step x s (.cbor i (.mc (.ok q))) env).2 = .resp (.mc m)) (hc : m.ad.att = some c) :
    ∃ p, Held c q.user.id p (step x s (.cbor i (.mc (.ok q))) env).1.flash := by
  have hA : ∃ A : Fault → Prop, (∀ n, A (env n)) ∧ (¬ Settled s.flash → ¬ A .fail) := by
    by_cases hs : Settled s.flash
    · exact ⟨fun _ => True, fun _ => trivial, fun h => absurd hs h⟩
    · exact ⟨(· ≠ .fail), hf.2.1 (Or.inr hs), fun _ h => h rfl⟩
  obtain ⟨A, hA1, hA2⟩ := hA
  have := cbor_wp (x := x) (s := s) (i := i) (q := .mc (.ok q)) (env := env) (P := fun o : St × Out => ∀ m c, o.2 = .resp (.mc m) → m.ad.att = some c → ∃ p, Held c q.user.id p o.1.flash) hA1
    (new_makeCredential (r := aged i s.ram) i q hm hf.2.2.1 hf.2.2.2 hrk g hA2 hnew)
    (by
      rintro a f r ⟨m, c, p, rfl, h1, h2⟩ m' c' e hc'
      cases e
      rw [h1] at hc'
      cases hc'
      exact ⟨p, h2⟩) (fun _ _ _ _ _ _ h => by cases h) (fun _ _ _ _ _ _ h => by cases h) (fun _ _ _ _ _ h => by cases h)
  exact this m c h hc

/-! ### Histories -/

/-- Properties of the ids of stored credentials that new credentials have are kept. -/
theorem slots_step (hm : ∀ k m, (x.hmac k m).length = 32) {P : Nat → Bytes → Prop} (s : St) (op : Op) (env : Env) (hr : op.resets = false)
    (hp : op.powers = true → noFail env) (hz : op.sized) (hl : s.flash.lb.isSome = true)
    (hd : ∀ c, op.draws ((Cid.nonce c).take 16) → ∀ k, P k c) (hs : Slots P s.flash) : Slots P (step x s op env).1.flash := by
  refine keeps_step x s op env hr hp hl slots_consistency ?_ (fun _ _ _ _ _ => slots_cmDelete) (fun _ _ => slots_cmUpdate) hs
  rintro i q uv rfl
  exact mcFinish_cid i q uv hm hz.1 hz.2 _ fun c' h1 h2 h3 => slots_mcStore (hd c' h2.symm)

theorem slots_run (hm : ∀ k m, (x.hmac k m).length = 32) {P : Nat → Bytes → Prop} (ops : List (Op × Env)) (s : St) (hl : s.flash.lb.isSome = true)
    (hf : Along x Fair s ops) (hd : ∀ o ∈ ops, ∀ c, o.1.draws ((Cid.nonce c).take 16) → ∀ k, P k c) (hs : Slots P s.flash) :
    Slots P (run x s ops).1.flash := by
  induction ops generalizing s with
  | nil => exact hs
  | cons o ops ih =>
    obtain ⟨op, e⟩ := o
    obtain ⟨⟨h1, h2, h3⟩, h4⟩ := hf
    rw [run_cons]
    refine ih _ ((secret_step (x := x) s op e h1 (fun h => h2 (Or.inl h)) hl).lb hl) h4 (fun o ho => hd o (List.mem_cons_of_mem _ ho)) ?_
    exact slots_step hm s op e h1 (fun h => h2 (Or.inl h)) h3 hl (hd (op, e) List.mem_cons_self) hs

theorem held_run (hm : ∀ k m, (x.hmac k m).length = 32) {c uid : Bytes} {p : Nat} (ops : List (Op × Env)) (s : St) (hl : s.flash.lb.isSome = true)
    (hf : Along x Fair s ops) (he : ∀ o ∈ ops, ¬ o.1.ends c uid ∧ ¬ o.1.draws ((Cid.nonce c).take 16)) (hs : Held c uid p s.flash) :
    Held c uid p (run x s ops).1.flash := by
  induction ops generalizing s with
  | nil => exact hs
  | cons o ops ih =>
    obtain ⟨op, e⟩ := o
    obtain ⟨⟨h1, h2, h3⟩, h4⟩ := hf
    rw [run_cons]
    refine ih _ ((secret_step (x := x) s op e h1 (fun h => h2 (Or.inl h)) hl).lb hl) h4 (fun o ho => he o (List.mem_cons_of_mem _ ho)) ?_
    have := he (op, e) List.mem_cons_self
    exact held_step hm s op e h1 (fun h => h2 (Or.inl h)) h3 hl this.1 this.2 hs

theorem secrets_run (ops : List (Op × Env)) (s : St) (hl : s.flash.lb.isSome = true) (hf : Along x Fair s ops) :
    rdCert (·.kh) (run x s ops).1.flash = rdCert (·.kh) s.flash ∧ rdCert (·.he) (run x s ops).1.flash = rdCert (·.he) s.flash ∧
    (s.flash.counter.isSome = true → (run x s ops).1.flash.counter.isSome = true) ∧ (run x s ops).1.flash.lb.isSome = true := by
  induction ops generalizing s with
  | nil => exact ⟨rfl, rfl, id, hl⟩
  | cons o ops ih =>
    obtain ⟨op, e⟩ := o
    obtain ⟨⟨h1, h2, h3⟩, h4⟩ := hf
    rw [run_cons]
    have hsec := secret_step (x := x) s op e h1 (fun h => h2 (Or.inl h)) hl
    have hctr := (C60_step (x := x) s op e h1 hl (fun h => h2 (Or.inl h))).2
    obtain ⟨i1, i2, i3, i4⟩ := ih _ (hsec.lb hl) h4
    refine ⟨i1.trans hsec.kh, i2.trans hsec.he, fun h => i3 ?_, i4⟩
    rcases hctr with e | ⟨c, _, e⟩
    · rw [e]; exact h
    · rw [e]; rfl

theorem Unused.slots {f : Flash} {P : Nat → Bytes → Prop} (h : Unused f) : Slots P f := by
  obtain ⟨i, hdc⟩ := h.dc
  intro recs p d hr hl
  unfold rdRecs at hr
  rw [hdc] at hr
  cases hr
  have := hl.1
  simp at this

/-- What a successful registration leaves: the new credential is of this device, and stored if it was to be
resident. -/
theorem registered (hm : ∀ k m, (x.hmac k m).length = 32) (s : St) (hs : Unused s.flash) (ops : List (Op × Env)) (hf : Along x Fair s ops)
    (i : In) (q : McReq) (env : Env) (hf' : Fair (run x s ops).1 (.cbor i (.mc (.ok q)), env)) (m : McResp) (c : Bytes)
    (h : (step x (run x s ops).1 (.cbor i (.mc (.ok q))) env).2 = .resp (.mc m)) (hc : m.ad.att = some c) :
    ∃ kh, rdCert (·.kh) s.flash = some kh ∧ Authentic x kh c ∧ c.length = 70 ∧ Cid.rp c = q.rpHash ∧
      Cid.dc c = (if q.rk = .yes then 1 else 0) ∧ (Cid.nonce c).take 16 = i.rndNonce ∧
      (step x (run x s ops).1 (.cbor i (.mc (.ok q))) env).1.flash.counter.isSome = true ∧
      (q.rk = .yes → (∀ o ∈ ops, ¬ o.1.draws i.rndNonce) →
        ∃ p, Held c q.user.id p (step x (run x s ops).1 (.cbor i (.mc (.ok q))) env).1.flash) := by
  obtain ⟨g, hl⟩ := good_run (K := False) hm ops s hs.lb hf False.elim hs.good
  obtain ⟨r', ⟨m', hm', hd⟩, _⟩ := resp_of x i (q := .mc (.ok q)) (wp_makeCredential x i q) h
  cases hm'
  obtain ⟨kh, h1, h2⟩ := hd.cid
  rw [hc] at h2
  cases h2
  obtain ⟨a, b, e, d, _⟩ := makeCid_parts (x := x) (kh := kh) (dc := if q.rk == .yes then 1 else 0)
    (cp := if q.protect == 0 then 1 else q.protect) (alg := q.alg) hm hf'.2.2.1 hf'.2.2.2
  refine ⟨kh, (secrets_run ops s hs.lb hf).1 ▸ h1, a, b, e, d.trans ?_, makeCid_nonce hm hf'.2.2.1 hf'.2.2.2, ?_, ?_⟩
  · cases q.rk <;> rfl
  · obtain ⟨n, h3, _, h5⟩ := hd.ctr
    unfold Flash.counter
    rw [h5]
    unfold rdCert at h3
    cases hcc : (run x s ops).1.flash.cert with
    | none => rw [hcc] at h3; cases h3
    | some c => rfl
  · intro hrk hno
    refine new_step hm g hf' hrk ?_ h hc
    refine slots_run hm ops s hs.lb hf (fun o ho c' hd' k hn => ?_) hs.slots
    exact hno o ho (hn ▸ hd')

/-! ### C86 -/

/-- A credential works. Take any history of an authenticator, with power cuts anywhere and storage errors, in which
a credential was registered, and any further one without a reset. An assertion request that names the
credential and meets its conditions, made when the storage works, is answered with an assertion by that
credential - for a resident credential, as long as it was not deleted, no other one was registered for the same relying
party and user, and the random generator did not deliver the nonce of the credential twice. -/
theorem C86_works (hm : ∀ k m, (x.hmac k m).length = 32) (s : St) (hs : Unused s.flash) (hhe : rdCert (·.he) s.flash ≠ none)
    (before : List (Op × Env)) (hf : Along x Fair s before)
    (i : In) (q : McReq) (env : Env) (hf' : Fair (run x s before).1 (.cbor i (.mc (.ok q)), env)) (m : McResp) (c : Bytes)
    (h : (step x (run x s before).1 (.cbor i (.mc (.ok q))) env).2 = .resp (.mc m)) (hc : m.ad.att = some c)
    (after : List (Op × Env)) (hf'' : Along x Fair (step x (run x s before).1 (.cbor i (.mc (.ok q))) env).1 after)
    (hno : q.rk = .yes → (∀ o ∈ before ++ after, ¬ o.1.draws i.rndNonce) ∧ ∀ o ∈ after, ¬ o.1.ends c q.user.id)
    (t : St) (ht : t = (run x (step x (run x s before).1 (.cbor i (.mc (.ok q))) env).1 after).1)
    (j : In) (qa : GaReq) (uv : Bool) (hq : Asks x t j qa c uv) (env' : Env) (he : ∀ n, env' n = .ok) :
    ∃ kh n, rdCert (·.kh) t.flash = some kh ∧ t.flash.counter = some n ∧
      (step x t (.cbor j (.ga (.ok qa))) env').2.asserts x kh c qa uv (n + 1) := by
  obtain ⟨g, hl⟩ := good_run (K := False) hm before s hs.lb hf False.elim hs.good
  obtain ⟨kh, h1, h2, h3, h4, h5, h6, h7, h8⟩ := registered hm s hs before hf i q env hf' m c h hc
  have g1 := (good_step (K := False) hm (run x s before).1 (.cbor i (.mc (.ok q))) env hf'.1 (fun h => hf'.2.1 (Or.inl h)) hf'.2.2 hl
    (fun h => hf'.2.1 (Or.inr h)) g False.elim).1
  have hsec := secret_step (x := x) (run x s before).1 (.cbor i (.mc (.ok q))) env hf'.1 (fun h => hf'.2.1 (Or.inl h)) hl
  have hl1 := hsec.lb hl
  have g2 := (good_run (K := False) hm after _ hl1 hf'' False.elim g1).1
  obtain ⟨s1, s2, s3, _⟩ := secrets_run after _ hl1 hf''
  obtain ⟨b1, b2, _, _⟩ := secrets_run before s hs.lb hf
  rw [← ht] at g2 s1 s2 s3
  obtain ⟨n, hn⟩ := Option.isSome_iff_exists.mp (s3 h7)
  have hkh : rdCert (·.kh) t.flash = some kh := s1.trans (hsec.kh.trans (b1.trans h1))
  refine ⟨kh, n, hkh, hn, ga_works he g2 hkh h2 h3 hn ?_ ?_ hq⟩
  · rw [s2, hsec.he, b2]
    exact hhe
  · intro hd
    have hrk : q.rk = .yes := by
      cases hr : q.rk <;> rw [hr] at h5 <;> first | rfl | exact absurd h5 hd
    obtain ⟨hno1, hno2⟩ := hno hrk
    obtain ⟨p, hp⟩ := h8 hrk fun o ho => hno1 o (List.mem_append_left _ ho)
    refine ⟨q.user.id, p, ?_⟩
    rw [ht]
    exact held_run hm after _ hl1 hf'' (fun o ho => ⟨hno2 o ho, by rw [h6]; exact hno1 o (List.mem_append_right _ ho)⟩) hp

theorem Held.holds {c uid : Bytes} {p : Nat} {f : Flash} (h : Held c uid p f) :
    ∃ recs d, rdRecs f = some recs ∧ recs[p]? = some d ∧ d.deleted = false ∧ d.cid = c ∧ d.user.id = uid := by
  obtain ⟨⟨recs, a, d, h1, h2, h3, h4, _⟩, _⟩ := h
  exact ⟨recs, d, by unfold rdRecs; rw [h1]; rfl, h2.1, h2.2, h3, h4⟩

/-- A resident credential is found without being named: it is among the credentials that getAssertion and
getNextAssertion return for its relying party, if its protection allows it. -/
theorem C86_found (hm : ∀ k m, (x.hmac k m).length = 32) (s : St) (hs : Unused s.flash)
    (before : List (Op × Env)) (hf : Along x Fair s before)
    (i : In) (q : McReq) (hrk : q.rk = .yes) (env : Env) (hf' : Fair (run x s before).1 (.cbor i (.mc (.ok q)), env)) (m : McResp) (c : Bytes)
    (h : (step x (run x s before).1 (.cbor i (.mc (.ok q))) env).2 = .resp (.mc m)) (hc : m.ad.att = some c)
    (after : List (Op × Env)) (hf'' : Along x Fair (step x (run x s before).1 (.cbor i (.mc (.ok q))) env).1 after)
    (hno : ∀ o ∈ before ++ after, ¬ o.1.draws i.rndNonce) (hno' : ∀ o ∈ after, ¬ o.1.ends c q.user.id)
    (t : St) (ht : t = (run x (step x (run x s before).1 (.cbor i (.mc (.ok q))) env).1 after).1)
    (j : In) (qa : GaReq) (hq : qa.allow = []) (hh : qa.hs = none) (hrp : qa.rpHash = q.rpHash) (env' : Env) (g : GaResp)
    (hg : (step x t (.cbor j (.ga (.ok qa))) env').2 = .resp (.ga g)) (hpr : Cid.cp c = 2 ∨ Cid.cp c = 3 → g.ad.uv = true)
    (recs : List Dc) (hrecs : rdRecs (step x t (.cbor j (.ga (.ok qa))) env').1.flash = some recs)
    (hus : ∀ p ∈ matching recs qa.rpHash g.ad.uv, ∀ d, recs[p]? = some d → Usable x (step x t (.cbor j (.ga (.ok qa))) env').1 d)
    (l : List In) (hti : Timely j.tick' l) (hlen : l.length + 1 = (matching recs qa.rpHash g.ad.uv).length) :
    c ∈ g.cid :: (assertions (run x (step x t (.cbor j (.ga (.ok qa))) env').1 (nexts l)).2).map (·.cid) := by
  obtain ⟨_, hl⟩ := good_run (K := False) hm before s hs.lb hf False.elim hs.good
  obtain ⟨kh, h1, h2, h3, h4, h5, h6, h7, h8⟩ := registered hm s hs before hf i q env hf' m c h hc
  have hsec := secret_step (x := x) (run x s before).1 (.cbor i (.mc (.ok q))) env hf'.1 (fun h => hf'.2.1 (Or.inl h)) hl
  have hl1 := hsec.lb hl
  obtain ⟨_, _, _, hl2⟩ := secrets_run after _ hl1 hf''
  obtain ⟨p, hp⟩ := h8 hrk fun o ho => hno o (List.mem_append_left _ ho)
  have ht1 := held_run hm after _ hl1 hf'' (fun o ho => ⟨hno' o ho, by rw [h6]; exact hno o (List.mem_append_right _ ho)⟩) hp
  rw [← ht] at ht1 hl2
  have ht2 := held_step hm t (.cbor j (.ga (.ok qa))) env' rfl nofun trivial hl2 id id ht1
  obtain ⟨recs', d, e1, e2, e3, e4, _⟩ := ht2.holds
  rw [hrecs] at e1
  cases e1
  rw [(C61_all t j qa env' g hq hh hg recs hrecs hus l hti hlen).1]
  have hmem : p ∈ matching recs qa.rpHash g.ad.uv := mem_matching.mpr ⟨d, e2, e3, by rw [e4, h4, hrp], by rw [e4]; exact hpr⟩
  unfold cids
  refine List.mem_map.mpr ⟨p, hmem, ?_⟩
  rw [e2]
  exact e4

/-! ### C87 -/

theorem along_left {P : St → Op × Env → Prop} {s : St} {l1 l2 : List (Op × Env)} (h : Along x P s (l1 ++ l2)) : Along x P s l1 := by
  induction l1 generalizing s with
  | nil => trivial
  | cons a l ih => exact ⟨h.1, ih h.2⟩

/-- The credential is in no slot but one. -/
abbrev OnlyAt (c : Bytes) (p : Nat) : Flash → Prop := Slots fun k c' => Cid.nonce c' = Cid.nonce c → k = p
/-- The credential is in no slot. -/
abbrev Gone (c : Bytes) : Flash → Prop := Slots fun _ c' => Cid.nonce c' ≠ Cid.nonce c

theorem Gone.absent {c : Bytes} {f : Flash} (h : Gone c f) : Absent f c := by
  rintro d ⟨recs, p, h1, h2, h3⟩
  exact h recs p d h1 ⟨h2, h3⟩

theorem gone_credMgmt {c : Bytes} {p : Nat} {i : In} {q : CmReq} {f : Flash} {r : Ram} {A : Fault → Prop} (h6 : q.sub = 6) (hq : q.cid = c) (hs : OnlyAt c p f) :
    wp A (credMgmt x i (.ok q)) (fun _ f' _ => Gone c f') (fun _ _ _ => True) (fun _ _ => True) f r := by
  unfold credMgmt
  apply wp_bind
  refine wp_mono (slots_consistency (P := fun k c' => Cid.nonce c' = Cid.nonce c → k = p) A f r) ?_ (fun _ _ _ _ => trivial) (fun _ _ _ => trivial)
  intro _ f1 r1 h1
  rw [h6]
  rw [if_pos (by decide)]
  apply wp_bind
  refine wp_mono (kp_cmAuth x i q A f1 r1) ?_ (fun _ _ _ _ => trivial) (fun _ _ _ => trivial)
  intro n f2 r2 h2
  show wp A (if (6 == 1) = true then _ else _) _ _ _ _ _
  rw [if_neg (by decide), if_neg (by decide), if_neg (by decide), if_neg (by decide), if_neg (by decide), if_pos (by decide)]
  exact gone_cmDelete hq (OfStore.keep _ _ h2.1 (h1 hs))

/-- The deletion of a resident credential, once answered, has taken it out of the store, and it stays out. -/
theorem deleted (hm : ∀ k m, (x.hmac k m).length = 32) (s : St) (hs : Unused s.flash) (before : List (Op × Env)) (hf : Along x Fair s before)
    (i : In) (q : McReq) (hrk : q.rk = .yes) (env : Env) (hf' : Fair (run x s before).1 (.cbor i (.mc (.ok q)), env)) (m : McResp) (c : Bytes)
    (h : (step x (run x s before).1 (.cbor i (.mc (.ok q))) env).2 = .resp (.mc m)) (hc : m.ad.att = some c)
    (after : List (Op × Env)) (hf'' : Along x Fair (step x (run x s before).1 (.cbor i (.mc (.ok q))) env).1 after)
    (hno : ∀ o ∈ before ++ after, ¬ o.1.draws i.rndNonce)
    (t : St) (ht : t = (run x (step x (run x s before).1 (.cbor i (.mc (.ok q))) env).1 after).1)
    (j : In) (qd : CmReq) (h6 : qd.sub = 6) (hqd : qd.cid = c) (envd : Env) (rd : Resp)
    (hd : (step x t (.cbor j (.cm (.ok qd))) envd).2 = .resp rd) :
    Cid.dc c ≠ 0 ∧ (Cid.nonce c).take 16 = i.rndNonce ∧ Gone c (step x t (.cbor j (.cm (.ok qd))) envd).1.flash ∧
    ¬ (step x t (.cbor j (.cm (.ok qd))) envd).1.ram.going ∧ (step x t (.cbor j (.cm (.ok qd))) envd).1.flash.lb.isSome = true := by
  obtain ⟨_, hl⟩ := good_run (K := False) hm before s hs.lb hf False.elim hs.good
  obtain ⟨kh, h1, h2, h3, h4, h5, h6', h7, h8⟩ := registered hm s hs before hf i q env hf' m c h hc
  have hsec := secret_step (x := x) (run x s before).1 (.cbor i (.mc (.ok q))) env hf'.1 (fun h => hf'.2.1 (Or.inl h)) hl
  have hl1 := hsec.lb hl
  obtain ⟨_, _, _, hl2⟩ := secrets_run after _ hl1 hf''
  obtain ⟨p, hp⟩ := h8 hrk fun o ho => hno o (List.mem_append_left _ ho)
  have ho : OnlyAt c p t.flash := by
    rw [ht]
    refine slots_run hm after _ hl1 hf'' (fun o ho c' hd' k hn => ?_) hp.only
    refine absurd ?_ (hno o (List.mem_append_right _ ho))
    rw [← h6', ← hn]
    exact hd'
  rw [← ht] at hl2
  have hsd := secret_step (x := x) t (.cbor j (.cm (.ok qd))) envd rfl nofun hl2
  obtain ⟨r', hg, hr⟩ := resp_of x j (q := .cm (.ok qd)) (gone_credMgmt h6 hqd ho) hd
  refine ⟨?_, h6', hg, ?_, hsd.lb hl2⟩
  · rw [h5, if_pos hrk]; decide
  · rw [hr]
    unfold Ram.going
    show ¬ ((0x0A : Byte) = 0x02 ∨ (0x0A : Byte) = 0x08)
    decide

/-- An assertion of a session that began when the credential was gone is by another one. -/
theorem gone_ga {c : Bytes} (hd : Cid.dc c ≠ 0) {s : St} {i : In} {q : GaReq} {env : Env} {g : GaResp}
    (h : (step x s (.cbor i (.ga (.ok q))) env).2 = .resp (.ga g)) (hg : Gone c (step x s (.cbor i (.ga (.ok q))) env).1.flash) : g.cid ≠ c := by
  obtain ⟨q', g', hq, hgg, hb⟩ := ga_resp x i h
  cases hq
  cases hgg
  obtain ⟨d, f1, r1, _, _, h3, h4, _, _, _, r', hdn, hr⟩ := hb.done
  obtain ⟨n, _, _, hf⟩ := hdn.ctr
  have hdc : rdRecs (step x s (.cbor i (.ga (.ok q))) env).1.flash = rdRecs f1 := rdRecs_dc (by rw [hf])
  have live : Live f1 d → g.cid ≠ c := by
    rintro ⟨recs, p, e1, e2, e3⟩ hc
    refine hg recs p d (hdc.trans e1) ⟨e2, e3⟩ ?_
    rw [← hdn.cid, hc]
  by_cases ha : r1.ga.req.allow = []
  · obtain ⟨recs, kh, e1, e2, _, _, _, e6, _⟩ := hdn.chosen.found ha
    obtain ⟨e6, _, e8⟩ := e6 h3
    refine live ?_
    rw [h3] at e2
    cases hl : r'.ga.list with
    | nil => exact absurd hl e8
    | cons p l =>
      rw [hl] at e2 e6
      have hp : p ∈ matching recs r1.ga.req.rpHash r1.ga.uv := by rw [← e6]; exact List.mem_cons_self
      obtain ⟨d', k1, k2, _⟩ := mem_matching.mp hp
      have e2 : recs[p]? = some d := e2
      rw [e2] at k1
      cases k1
      exact ⟨recs, p, e1, e2, k2⟩
  · obtain ⟨_, _, e, hal, _⟩ := hdn.chosen.named ha
    rcases hal.src with ⟨e1, e2⟩ | ⟨_, e2⟩
    · intro hc
      rw [hdn.cid, e1] at hc
      exact hd (hc ▸ e2)
    · exact live e2

/-- A deleted credential asserts nothing. Take any history of an authenticator in which a resident credential was
registered and later deleted by a command that reported success. No assertion that it gives in
the further history without a reset - with power cuts anywhere and storage errors, named by the platform or not, by getAssertion or getNextAssertion -
is by that credential, and it is not stored. -/
theorem C87_deleted_partial (hm : ∀ k m, (x.hmac k m).length = 32) (s : St) (hs : Unused s.flash) (before : List (Op × Env)) (hf : Along x Fair s before)
    (i : In) (q : McReq) (hrk : q.rk = .yes) (env : Env) (hf' : Fair (run x s before).1 (.cbor i (.mc (.ok q)), env)) (m : McResp) (c : Bytes)
    (h : (step x (run x s before).1 (.cbor i (.mc (.ok q))) env).2 = .resp (.mc m)) (hc : m.ad.att = some c)
    (after : List (Op × Env)) (hf'' : Along x Fair (step x (run x s before).1 (.cbor i (.mc (.ok q))) env).1 after)
    (t : St) (ht : t = (run x (step x (run x s before).1 (.cbor i (.mc (.ok q))) env).1 after).1)
    (j : In) (qd : CmReq) (h6 : qd.sub = 6) (hqd : qd.cid = c) (envd : Env) (rd : Resp)
    (hd : (step x t (.cbor j (.cm (.ok qd))) envd).2 = .resp rd)
    (ops : List (Op × Env)) (hops : Along x Fair (step x t (.cbor j (.cm (.ok qd))) envd).1 ops)
    (hno : ∀ o ∈ before ++ after ++ ops, ¬ o.1.draws i.rndNonce)
    (hu : ∀ u, .ub u ∉ (run x (step x t (.cbor j (.cm (.ok qd))) envd).1 ops).2) :
    Absent (run x (step x t (.cbor j (.cm (.ok qd))) envd).1 ops).1.flash c ∧
    ∀ g ∈ assertions (run x (step x t (.cbor j (.cm (.ok qd))) envd).1 ops).2, g.cid ≠ c := by
  obtain ⟨hdc, hnc, hgone, hng, hlb⟩ := deleted hm s hs before hf i q hrk env hf' m c h hc after hf''
    (fun o ho => hno o (List.mem_append_left _ ho)) t ht j qd h6 hqd envd rd hd
  generalize (step x t (.cbor j (.cm (.ok qd))) envd).1 = u at *
  have hgo : ∀ l1 l2, ops = l1 ++ l2 → Along x Fair u l1 → Gone c (run x u l1).1.flash := by
    intro l1 l2 he ha
    refine slots_run hm l1 u hlb ha (fun o ho c' hd' k hn => ?_) hgone
    refine hno o (List.mem_append_right _ (he ▸ List.mem_append_left _ ho)) ?_
    rw [← hnc, ← hn]
    exact hd'
  refine ⟨(hgo ops [] (List.append_nil _).symm hops).absent, ?_⟩
  clear hd h hc hs hf hf' hf'' ht hqd
  induction ops using snocInduction with
  | h0 => intro g hg; cases hg
  | h l a ih =>
    obtain ⟨op, e⟩ := a
    have hal : Along x Fair u l := along_left hops
    rw [run_snoc] at hu ⊢
    intro g hg
    unfold assertions at hg
    rw [List.filterMap_append, List.mem_append] at hg
    rcases hg with hg | hg
    · refine ih (fun o ho => hno o ?_) hal (fun v hv => hu v (List.mem_append_left _ hv)) (fun l1 l2 he => hgo l1 (l2 ++ [(op, e)]) (by rw [he, List.append_assoc])) g hg
      rcases List.mem_append.mp ho with ho | ho
      · exact List.mem_append_left _ ho
      · exact List.mem_append_right _ (List.mem_append_left _ ho)
    · have hout : (step x (run x u l).1 op e).2 = .resp (.ga g) := by
        rw [List.mem_filterMap] at hg
        obtain ⟨o, ho, hg⟩ := hg
        rw [List.mem_singleton] at ho
        subst ho
        split at hg
        · next g' he => cases hg; exact he
        · cases hg
      obtain ⟨k, qq, rfl⟩ := resp_cbor x hout
      have hlast : Gone c (step x (run x u l).1 (.cbor k qq) e).1.flash := by
        have := hgo (l ++ [(.cbor k qq, e)]) [] (List.append_nil _).symm hops
        rwa [run_snoc] at this
      cases qq with
      | ga qg =>
        obtain ⟨q', g', hq, _, _⟩ := ga_resp x k hout
        subst hq
        exact gone_ga hdc hout hlast
      | gna =>
        obtain ⟨_, _, _, he, hgoing, _⟩ := gna_resp x k hout
        obtain ⟨pre, i0, q0, e0, g0, post, hl, ha, hcont⟩ := session x hng l (fun v hv => hu v (List.mem_append_left _ hv)) hgoing
        obtain ⟨_, _, _, _, _, hlt, _⟩ := gna_resp x k hout
        have hnm := begun_named x i0 ha
        have hall : q0.allow = [] := by
          refine Classical.byContradiction fun hne => ?_
          obtain ⟨q', g', hq, hgg, hb⟩ := ga_resp x i0 ha
          cases hq
          obtain ⟨d, f1, r1, _, _, _, h4, _, _, _, r', hdn, hr⟩ := hb.done
          have : (step x (run x u pre).1 (.cbor i0 (.ga (.ok q0))) e0).1.ram.ga.req.allow ≠ [] := by
            rw [hr]
            obtain ⟨_, h⟩ := hdn.ramReq
            show r'.ga.req.allow ≠ []
            rw [h, h4]
            exact hne
          have h1 := hnm.2 this
          have h2 := hcont.num
          have h3 := hcont.ctr
          have h4 := hnm.1
          omega
        obtain ⟨recs, hL, _⟩ := listed hall ha
        obtain ⟨n1, n2, _⟩ := next_step hL hcont hout
        have hgs : Gone c (step x (run x u pre).1 (.cbor i0 (.ga (.ok q0))) e0).1.flash := by
          have := hgo (pre ++ [(.cbor i0 (.ga (.ok q0)), e0)]) (post ++ [(.cbor k .gna, e)]) (by rw [hl]; simp) ?_
          · rwa [run_snoc] at this
          · apply along_left (l2 := post)
            rw [List.append_assoc]
            exact hl ▸ hal
        intro hcid
        rw [List.drop_eq_getElem_cons n1] at n2
        unfold cids at n2
        rw [List.map_cons] at n2
        obtain ⟨d, k1, k2, _⟩ := mem_matching.mp (List.getElem_mem n1)
        rw [k1] at n2
        have n3 : d.cid = g.cid := (List.cons.inj n2).1
        refine hgs recs _ d hL.store ⟨k1, k2⟩ ?_
        rw [n3, hcid]
      | mc q' =>
        cases q' with
        | error c =>
          obtain ⟨_, h, _⟩ := resp_of x k (q := .mc (.error c)) (Q := fun _ _ _ => False) (wp_fail trivial) hout
          exact h.elim
        | ok q' =>
          obtain ⟨r', ⟨m, hm, hd⟩, _⟩ := resp_of x k (q := .mc (.ok q')) (wp_makeCredential x k q') hout
          cases hm
      | other c => exact absurd hout (other_not_resp x k)
      | _ =>
        exfalso
        obtain ⟨_, hpl, _⟩ := resp_of x k (plain_handle x k (by simp [Req.cmd]) (by simp [Req.cmd]) (by simp [Req.cmd]) _ _) hout
        exact hpl

end Verif.Ctap
