import Verif.Spec.CtapExclude
import Verif.Spec.CtapToy
import Verif.Props.CtapLife
/-
C88: exclude lists.
-/
namespace Verif.Ctap
open Cmd

variable {x : Ext} {i : In}

/-- The command fails with errors of a kind only. -/
def Errs {α : Type} (P : Err → Prop) (m : M α) : Prop :=
  ∀ f r, wp (fun _ => True) m (fun _ _ _ => True) (fun e _ _ => P e) (fun _ _ => True) f r

namespace Errs
variable {α β σ : Type} {P : Err → Prop}
theorem pure {b : β} : Errs P (Pure.pure b : M β) := fun _ _ => wp_pure trivial
theorem throw {e : Err} (h : P e) : Errs P (throw e : M β) := fun _ _ => wp_throw h
theorem fail {c : Byte} (h : P (.code c)) : Errs P (fail c : M β) := fun _ _ => wp_fail h
theorem failIf {b : Bool} {c : Byte} (h : P (.code c)) : Errs P (failIf b c) := fun _ _ => wp_failIf (fun _ => h) fun _ => trivial
theorem bind {m : M α} {k : α → M β} (h : Errs P m) (h' : ∀ a, Errs P (k a)) : Errs P (m >>= k) := fun f r =>
  wp_bind (wp_mono (h f r) (fun a f r _ => h' a f r) (fun _ _ _ h => h) (fun _ _ _ => trivial))
theorem ite {c : Prop} [Decidable c] {m k : M β} (h : Errs P m) (h' : Errs P k) : Errs P (if c then m else k) := by
  split
  · exact h
  · exact h'
theorem get : Errs P (Cmd.get : M Ram) := fun _ _ => wp_get trivial
theorem mod {g : Ram → Ram} : Errs P (Cmd.mod g : M Unit) := fun _ _ => wp_mod trivial
theorem rdF (look : Flash → Option α) : Errs P (Cmd.rdF look : M (Option α)) := fun _ _ =>
  wp_rdF (fun _ => trivial) (fun _ => trivial) (fun _ => trivial)
theorem rdOr {look : Flash → Option α} {e : Err} (h : P e) : Errs P (Cmd.rdOr look e : M α) := fun _ _ =>
  wp_rdOr (fun _ _ => trivial) (fun _ => h) (fun _ => h) (fun _ => trivial)
theorem wrOr {upd : Flash → Option Flash} {e : Err} (h : P e) : Errs P (Cmd.wrOr upd e : M Unit) := fun _ _ =>
  wp_wrOr (fun _ _ => trivial) (fun _ => h) (fun _ => h) (fun _ => trivial)
theorem rdRec {recs : Flash → Option (List β)} {k : Nat} (h : P (.code Code.unhandled)) (h' : P (.ub .uninit)) : Errs P (rdRec recs k) := by
  unfold Ctap.rdRec
  apply bind (rdOr h)
  intro l
  split
  · exact throw h'
  · exact pure
theorem scanUp {recs : Flash → Option (List β)} {body : Nat → β → σ → σ × Bool} {k j : Nat} {s : σ}
    (h : P (.code Code.unhandled)) (h' : P (.ub .uninit)) : Errs P (scanUp recs body k j s) := by
  induction k generalizing j s with
  | zero => exact pure
  | succ k ih =>
    unfold Ctap.scanUp
    apply bind (rdRec h h')
    intro b
    split
    · exact pure
    · exact ih
end Errs

/-- Not the refusal that the exclude list leads to. -/
def Other (e : Err) : Prop := e ≠ .code Code.excluded

theorem other_ub {u : Ub} : Other (.ub u) := nofun
theorem other_code {c : Byte} (h : c ≠ Code.excluded) : Other (.code c) := fun e => h (by cases e; rfl)

macro "others" : tactic => `(tactic| first
  | exact other_ub
  | exact other_code (by assumption)
  | exact other_code (by decide))

macro "errs" : tactic => `(tactic| repeat' (first
  | with_reducible apply Errs.pure
  | with_reducible apply Errs.fail
  | with_reducible apply Errs.failIf
  | with_reducible apply Errs.throw
  | with_reducible apply Errs.get
  | with_reducible apply Errs.mod
  | with_reducible apply Errs.rdF
  | with_reducible apply Errs.rdOr
  | with_reducible apply Errs.wrOr
  | with_reducible apply Errs.rdRec
  | with_reducible apply Errs.scanUp
  | (with_reducible apply Errs.bind; rotate_left; intro _; rotate_right)
  | with_reducible apply Errs.ite
  | gzeta
  | (is_rmatch; with_reducible split)
  | others))

theorem errs_consistency : Errs Other consistency := by
  unfold consistency
  errs
theorem errs_wait {c : Byte} (h : c ≠ Code.excluded) : Errs Other (wait i c) := by
  unfold wait
  errs
theorem errs_hasPin : Errs Other hasPin := by
  unfold hasPin
  errs
theorem errs_emptyAuth {a : Option Bytes} : Errs Other (emptyAuth i a) := by
  unfold emptyAuth
  apply Errs.ite
  · refine Errs.bind (errs_wait (by decide)) fun _ => Errs.bind errs_hasPin fun p => Errs.fail ?_
    cases p <;> others
  · exact Errs.pure
theorem errs_mcAuth {q : McReq} : Errs Other (mcAuth x i q) := by
  unfold mcAuth hasPin verifyToken
  errs
theorem errs_takePresence {a : Option Bytes} : Errs Other (takePresence i a) := by
  unfold takePresence
  refine Errs.bind Errs.get fun r => ?_
  apply Errs.ite
  · errs
  · exact Errs.bind (errs_wait (by decide)) fun _ => Errs.mod
theorem errs_mcFinish {q : McReq} {uv : Bool} : Errs Other (mcFinish x i q uv) := by
  unfold mcFinish makeAuthData increaseCounter mcStore largeBlobKey
  errs


/-- The loop over the exclude list. -/
theorem wp_mcExclude {q : McReq} {uv : Bool} {f : Flash} {r : Ram} (l : List Bytes) (buf : Bytes) (hl : ∀ e ∈ l, e.length = 70) :
    wp (fun _ => True) (mcExclude x i q uv l buf)
      (fun _ _ _ => ∀ e ∈ l, ∀ kh, rdCert (·.kh) f = some kh → ¬ (Cid.rp e = q.rpHash ∧ Authentic x kh e ∧ (Cid.cp e = 3 → uv = true)))
      (fun e _ _ => e = .code Code.excluded → ∃ kh, rdCert (·.kh) f = some kh ∧
        ∃ e ∈ l, Cid.rp e = q.rpHash ∧ Authentic x kh e ∧ (Cid.cp e = 3 → uv = true)) (fun _ _ => True) f r := by
  induction l generalizing buf with
  | nil => exact wp_pure nofun
  | cons d l ih =>
    have next : ∀ buf, (∀ kh, rdCert (·.kh) f = some kh → ¬ (Cid.rp d = q.rpHash ∧ Authentic x kh d ∧ (Cid.cp d = 3 → uv = true))) →
        wp (fun _ => True) (mcExclude x i q uv l buf)
        (fun _ _ _ => ∀ e ∈ d :: l, ∀ kh, rdCert (·.kh) f = some kh → ¬ (Cid.rp e = q.rpHash ∧ Authentic x kh e ∧ (Cid.cp e = 3 → uv = true)))
        (fun e _ _ => e = .code Code.excluded → ∃ kh, rdCert (·.kh) f = some kh ∧
        ∃ e ∈ d :: l, Cid.rp e = q.rpHash ∧ Authentic x kh e ∧ (Cid.cp e = 3 → uv = true)) (fun _ _ => True) f r := by
      intro buf hd
      refine wp_mono (ih buf fun e he => hl e (List.mem_cons_of_mem _ he)) (fun _ _ _ h e he => ?_) (fun _ _ _ h e => ?_) (fun _ _ h => h)
      · rcases List.mem_cons.mp he with rfl | he
        · exact hd
        · exact h e he
      · obtain ⟨kh, h1, e, h2, h3⟩ := h e
        exact ⟨kh, h1, e, List.mem_cons_of_mem _ h2, h3⟩
    unfold mcExclude
    rw [overlay_full (hl d List.mem_cons_self)]
    show wp _ (if (Cid.rp d != q.rpHash) = true then _ else _) _ _ _ _ _
    by_cases hrp : Cid.rp d = q.rpHash
    · rw [if_neg (by simp [hrp])]
      apply wp_bind
      unfold verifyKh
      apply wp_bind
      apply wp_rdOr
      · intro kh hk
        by_cases ha : Authentic x kh d
        · rw [if_pos (by unfold Authentic at ha; simp [ha])]
          apply wp_pure
          show wp _ (if (Cid.cp d != 3 || uv) = true then _ else _) _ _ _ _ _
          by_cases hc : Cid.cp d = 3 → uv = true
          · rw [if_pos (by
              by_cases h3 : Cid.cp d = 3
              · simp [hc h3]
              · simp [h3])]
            have hit : ∃ kh, rdCert (·.kh) f = some kh ∧
              ∃ e ∈ d :: l, Cid.rp e = q.rpHash ∧ Authentic x kh e ∧ (Cid.cp e = 3 → uv = true) :=
              ⟨kh, hk, d, List.mem_cons_self, hrp, ha, hc⟩
            apply wp_bind
            apply wp_get
            refine wp_mono (Q := fun _ _ _ => False) (E := fun _ _ _ => True) (X := fun _ _ => True) ?_ (fun _ _ _ h => h.elim) (fun _ _ _ _ _ => hit) (fun _ _ h => h)
            wzeta
            apply wp_ite <;> intro _
            · apply wp_bind
              refine wp_mono (wp_true _) (fun _ _ _ _ => ?_) (fun _ _ _ _ => trivial) (fun _ _ _ => trivial)
              exact wp_fail trivial
            · exact wp_fail trivial
          · rw [if_neg (by
              intro h
              apply hc
              intro h3
              rw [h3] at h
              simpa using h)]
            exact next _ fun _ _ h => hc h.2.2
        · rw [if_neg (by
            intro h
            exact ha (eq_of_beq h).symm)]
          apply wp_pure
          refine next _ fun kh' hk' h => ?_
          rw [hk] at hk'
          cases hk'
          exact ha h.2.1
      · intro _ h; cases h
      · intro _ h; cases h
      · intro _; trivial
    · rw [if_pos (by simp [hrp])]
      exact next _ fun _ _ h => hrp h.1

theorem wp_flags {q : McReq} {uv : Bool} {f : Flash} {r : Ram} : wp (fun _ => True) (mcFinish x i q uv)
    (fun a _ _ => ∃ m, a = .mc m ∧ m.ad.uv = uv) (fun e _ _ => Other e) (fun _ _ => True) f r := by
  refine wp_mono (wp_and (errs_mcFinish (x := x) (i := i) f r) (Q' := fun a _ _ => ∃ m, a = .mc m ∧ m.ad.uv = uv) (E' := fun _ _ _ => True) (X' := fun _ _ => True) ?_)
    (fun _ _ _ h => h.2) (fun _ _ _ h => h.1) (fun _ _ _ => trivial)
  unfold mcFinish
  apply wp_bind
  apply wp_failIf
  · intro _; trivial
  intro _
  wzeta
  apply wp_bind
  apply wp_authData
  intro c f2 hc hf2
  have hfl := mcFlags (mcExt q) uv
  refine ⟨fun _ kh hkh _ => ?_, fun h => absurd h hfl.1⟩
  have : Gives (fun a => ∃ m, a = .mc m ∧ m.ad.uv = uv) (do
      let cid := (some (makeCid x kh i.rndNonce (if q.rk == .yes then 1 else 0) (if q.protect == 0 then 1 else q.protect) q.rpHash q.alg)).getD []
      if q.rk == .yes then mcStore q cid else pure ()
      let _ ← Cmd.rdOr (rdCert (·.key)) (.code Code.unhandled)
      let _ ← Cmd.rdOr (rdCert (fun c => some c.data)) (.code Code.unhandled)
      let lbk ← if q.lbk then (do let k ← largeBlobKey x cid; pure (some k)) else pure none
      return Resp.mc ⟨⟨q.rpHash, 0x41 ||| (if mcExt q then 0x80 else 0) ||| (if uv then 0x04 else 0), c + 1,
          some (makeCid x kh i.rndNonce (if q.rk == .yes then 1 else 0) (if q.protect == 0 then 1 else q.protect)
            q.rpHash q.alg)⟩, q.credBlob.map fun b => b.length ≤ 32 && q.rk == .yes,
        if q.protect != 0 then some q.protect else none, q.hmacSecret, q.cdh, lbk⟩) := by
    gives
    all_goals exact Gives.pure ⟨_, rfl, hfl.2.1⟩
  exact this _ _

theorem wp_barred {q : McReq} {f : Flash} {r : Ram} (hl : ∀ e ∈ q.exclude, e.length = 70) :
    wp (fun _ => True) (makeCredential x i (.ok q))
      (fun a _ _ => ∃ m, a = .mc m ∧ ∀ kh, rdCert (·.kh) f = some kh → ¬ Barred x kh q m.ad.uv)
      (fun e _ _ => e = .code Code.excluded → ∃ kh, rdCert (·.kh) f = some kh ∧ ∃ uv, Barred x kh q uv ∧
        (uv = true → Authorized x r.tok permMc q.rpHash q.cdh q.pinAuth (q.proto.getD 0))) (fun _ _ => True) f r := by
  unfold makeCredential
  have mid : ∀ {α β : Type} {R : FRel} {m : M α} {k : α → M β} {Q : β → Flash → Ram → Prop} {f r : _} {G : Prop}, Rel R m → Errs Other m →
      (∀ a f' r', R f r f' r' → wp (fun _ => True) (k a) Q (fun e _ _ => e = .code Code.excluded → G) (fun _ _ => True) f' r') →
      wp (fun _ => True) (m >>= k) Q (fun e _ _ => e = .code Code.excluded → G) (fun _ _ => True) f r := by
    intro α β R m k Q f r G h1 h2 h3
    apply wp_bind
    exact wp_mono (wp_and (h1 _ f r) (h2 f r)) (fun a f' r' h => h3 a f' r' h.1) (fun e _ _ h he => absurd he h.2) (fun _ _ _ => trivial)
  refine mid st_consistency errs_consistency fun _ f1 r1 h1 => ?_
  have hkh : ∀ kh, rdCert (·.kh) f1 = some kh ↔ rdCert (·.kh) f = some kh := by
    intro kh
    unfold rdCert
    rw [h1.cert]
  have hr : r1 = r := h1.ram
  subst hr
  refine mid (same_emptyAuth _ _) errs_emptyAuth fun _ f2 r2 h2 => ?_
  obtain ⟨rfl, rfl⟩ := h2
  refine mid (R := Same) (Rel.failIf _ _) (Errs.failIf (by others)) fun _ f2 r2 h2 => ?_
  obtain ⟨rfl, rfl⟩ := h2
  refine mid (R := Same) (Rel.failIf _ _) (Errs.failIf (by others)) fun _ f2 r2 h2 => ?_
  obtain ⟨rfl, rfl⟩ := h2
  refine mid (R := Same) (Rel.failIf _ _) (Errs.failIf (by others)) fun _ f2 r2 h2 => ?_
  obtain ⟨rfl, rfl⟩ := h2
  refine mid same_hasPin errs_hasPin fun p f2 r2 h2 => ?_
  obtain ⟨rfl, rfl⟩ := h2
  refine mid (R := Same) (Rel.failIf _ _) (Errs.failIf (by others)) fun _ f2 r2 h2 => ?_
  obtain ⟨rfl, rfl⟩ := h2
  have main : ∀ uv r3, (uv = true → Authorized x r2.tok permMc q.rpHash q.cdh q.pinAuth (q.proto.getD 0)) →
      wp (fun _ => True) (do mcExclude x i q uv q.exclude i.junk; takePresence i q.pinAuth; mcFinish x i q uv)
      (fun a _ _ => ∃ m, a = .mc m ∧ ∀ kh, rdCert (·.kh) f = some kh → ¬ Barred x kh q m.ad.uv)
      (fun e _ _ => e = .code Code.excluded → ∃ kh, rdCert (·.kh) f = some kh ∧ ∃ uv, Barred x kh q uv ∧
        (uv = true → Authorized x r2.tok permMc q.rpHash q.cdh q.pinAuth (q.proto.getD 0))) (fun _ _ => True) f2 r3 := by
    intro uv r3 hauth
    apply wp_bind
    refine wp_mono (wp_mcExclude q.exclude i.junk hl) (fun _ f4 r4 h => ?_) (fun e _ _ h he => ?_) (fun _ _ h => h)
    · refine mid (R := fun _ _ _ _ => True) (fun A f r => ?_) errs_takePresence fun _ f5 r5 _ => ?_
      · exact wp_mono (sc_takePresence i q.pinAuth A f r) (fun _ _ _ _ => trivial) (fun _ _ _ _ => trivial) (fun _ _ _ => trivial)
      · refine wp_mono wp_flags (fun a _ _ hm => ?_) (fun e _ _ ho he => absurd he ho) (fun _ _ h => h)
        obtain ⟨m, rfl, hm⟩ := hm
        refine ⟨m, rfl, fun kh hk => ?_⟩
        rintro ⟨e, he, hb⟩
        exact h e he kh ((hkh kh).mpr hk) (hm ▸ hb)
    · obtain ⟨kh, hk, e, h1, h2⟩ := h he
      exact ⟨kh, (hkh kh).mp hk, uv, ⟨e, h1, h2⟩, hauth⟩
  show wp _ _ _ _ _ f2 r2
  wzeta
  split
  · apply wp_bind
    apply wp_pure
    exact main false _ (fun h => by cases h)
  · apply wp_bind
    refine wp_mono (wp_and (errs_mcAuth f2 r2) (Q' := fun b f' r' => f' = f2 ∧ (b = true → Authorized x r2.tok permMc q.rpHash q.cdh q.pinAuth (q.proto.getD 0)))
      (E' := fun _ _ _ => True) (X' := fun _ _ => True) ?_) (fun b f' r' h => ?_) (fun e _ _ h he => absurd he h.1) (fun _ _ _ => trivial)
    · apply wp_mcAuth
      intro b t hb _
      exact ⟨rfl, hb⟩
    · obtain ⟨_, rfl, hb⟩ := h
      exact main b _ hb

/-- A registration succeeds only if its exclude list has no credential of this device for the relying party (that the
platform may learn of), whatever fails on the way. -/
theorem C88_not_twice (s : St) (i : In) (q : McReq) (hl : ∀ e ∈ q.exclude, e.length = 70) (env : Env) (m : McResp)
    (h : (step x s (.cbor i (.mc (.ok q))) env).2 = .resp (.mc m)) (kh : Bytes) (hk : rdCert (·.kh) s.flash = some kh) :
    ¬ Barred x kh q m.ad.uv := by
  obtain ⟨_, ⟨m', e, hb⟩, _⟩ := resp_of x i (q := .mc (.ok q)) (wp_mono (wp_barred hl) (fun _ _ _ h => h) (fun _ _ _ _ => trivial) (fun _ _ h => h)) h
  cases e
  exact hb kh hk

/-- The refusal "credential excluded" is given only if the list has one: with a credential that demands user
verification only to a platform that has a token for registrations with the relying party. -/
theorem C88_refusal (s : St) (i : In) (q : McReq) (hl : ∀ e ∈ q.exclude, e.length = 70) (env : Env)
    (h : (step x s (.cbor i (.mc (.ok q))) env).2 = .err Code.excluded) :
    ∃ kh uv, rdCert (·.kh) s.flash = some kh ∧ Barred x kh q uv ∧
      (uv = true → Authorized x (s.ram.tok.observe i.tick) permMc q.rpHash q.cdh q.pinAuth (q.proto.getD 0)) := by
  revert h
  refine cbor_wp (x := x) (s := s) (i := i) (q := .mc (.ok q)) (env := env) (P := fun p => p.2 = .err Code.excluded → _) (fun _ => trivial)
    (wp_barred hl) ?_ ?_ ?_ ?_
  · intro a _ _ _ h; cases h
  · intro c _ _ h he
    cases he
    obtain ⟨kh, h1, uv, h2, h3⟩ := h rfl
    exact ⟨kh, uv, h1, h2, h3⟩
  · intro _ _ _ _ h; cases h
  · intro _ _ _ h; cases h

/-- Over histories: a credential that was registered bars a second registration by a request that lists it, at any time
until a reset, unless it is protected by user verification. -/
theorem C88_history (hm : ∀ k m, (x.hmac k m).length = 32) (s : St) (hs : Unused s.flash) (before : List (Op × Env)) (hf : Along x Fair s before)
    (i : In) (q : McReq) (env : Env) (hf' : Fair (run x s before).1 (.cbor i (.mc (.ok q)), env)) (m : McResp) (c : Bytes)
    (h : (step x (run x s before).1 (.cbor i (.mc (.ok q))) env).2 = .resp (.mc m)) (hc : m.ad.att = some c)
    (after : List (Op × Env)) (hf'' : Along x Fair (step x (run x s before).1 (.cbor i (.mc (.ok q))) env).1 after)
    (j : In) (q' : McReq) (hrp : q'.rpHash = q.rpHash) (hl : ∀ e ∈ q'.exclude, e.length = 70) (he : c ∈ q'.exclude) (hp : Cid.cp c ≠ 3) (env' : Env) (m' : McResp) :
    (step x (run x (step x (run x s before).1 (.cbor i (.mc (.ok q))) env).1 after).1 (.cbor j (.mc (.ok q'))) env').2 ≠ .resp (.mc m') := by
  intro h'
  obtain ⟨_, hlb⟩ := good_run (K := False) hm before s hs.lb hf False.elim hs.good
  obtain ⟨kh, h1, h2, h3, h4, h5, h6, h7, h8⟩ := registered hm s hs before hf i q env hf' m c h hc
  have hsec := secret_step (x := x) (run x s before).1 (.cbor i (.mc (.ok q))) env hf'.1 (fun h => hf'.2.1 (Or.inl h)) hlb
  obtain ⟨s1, _, _, _⟩ := secrets_run after _ (hsec.lb hlb) hf''
  obtain ⟨b1, _, _, _⟩ := secrets_run before s hs.lb hf
  refine C88_not_twice _ j q' hl env' m' h' kh (s1.trans (hsec.kh.trans (b1.trans h1))) ⟨c, he, ?_, h2, fun h => absurd h hp⟩
  rw [h4, hrp]

section
open Toy

/-- The same relying party, with and without the credential in the list; a protected credential does not show. -/
def twice (p : Byte) (l : Nat) : List (Op × Env) :=
  let c := lastCidOf (run ext produced (hist [(20000, mc rpA user1 .no p none)])).2
  hist [(20000, mc rpA user1 .no p none), (20001, .mc (.ok { mcReq rpA user1 .no p none with exclude := List.replicate l c }))]
where
  lastCidOf (l : List Out) : Bytes := match l.getLast? with
    | some (.resp (.mc m)) => m.ad.att.getD []
    | _ => []

def codes (l : List Out) : List Byte := l.map fun o => match o with
  | .err c => c
  | .resp _ => 0
  | _ => 99

example : codes (run ext produced (twice 1 0)).2 = [0, 0] := by decide +kernel
example : codes (run ext produced (twice 1 1)).2 = [0, Code.excluded] := by decide +kernel
example : codes (run ext produced (twice 2 2)).2 = [0, Code.excluded] := by decide +kernel
example : codes (run ext produced (twice 3 2)).2 = [0, 0] := by decide +kernel
end

end Verif.Ctap
