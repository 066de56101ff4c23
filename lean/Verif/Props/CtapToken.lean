import Verif.Lemmas.CtapSession
import Verif.Props.CtapPinMore
/-
C53, C54, C55: pinUvAuthTokens.
-/
namespace Verif.Ctap
open Cmd

variable {x : Ext}

theorem observe_inUse {t : Tok} {now : UInt32} (h : (t.observe now).inUse = true) :
    t.observe now = t ∧ t.inUse = true ∧ now ≤ t.timeout := by
  unfold Tok.observe at h ⊢
  cases hu : t.inUse with
  | false => simp [hu] at h
  | true =>
    by_cases ht : now > t.timeout
    · simp [hu, ht, Tok.stop] at h
    · simp only [hu, ht, Bool.not_true, Bool.false_eq_true, if_false]
      exact ⟨trivial, trivial, UInt32.not_lt.mp ht⟩

/-- What happens to the token in one operation. -/
theorem tok_step (hx : x.Sized) (s : St) (op : Op) (env : Env) (h : (step x s op env).1.ram.tok.inUse = true) :
    (s.ram.tok.inUse = true ∧ ∃ now, (∀ i q, op = .cbor i q → now = i.tick) ∧ TokLe now s.ram.tok (step x s op env).1.ram.tok) ∨
    ∃ i q, op = .cbor i (.cp (.ok q)) ∧ (q.sub = 5 ∨ q.sub = 9) ∧ Right x s op ∧
      (∃ e, (step x s op env).2 = .resp (.token e)) ∧ (step x s op env).1.ram.tok = newTok i q s.ram.tok := by
  by_cases hc : ∃ i q, op = .cbor i q
  · obtain ⟨i, q, rfl⟩ := hc
    obtain ⟨o, r', he, ho⟩ := step_cbor (A := fun _ => True) x i hx s q (env := env) (fun _ => trivial)
    revert he ho h
    generalize step x s (.cbor i q) env = p
    obtain ⟨⟨f', rr⟩, out⟩ := p
    intro h he ho
    rcases ho with ⟨_, _, ho⟩ | ⟨ho, hout⟩
    · simp only at ho
      subst ho
      cases h
    simp only at ho
    subst ho
    simp only at h he hout ⊢
    have aged' : ∀ {t : Tok} , t.inUse = true → TokLe i.tick (aged i s.ram).tok t → s.ram.tok.inUse = true ∧
        ∃ now, (∀ j p, Op.cbor i q = .cbor j p → now = j.tick) ∧ TokLe now s.ram.tok t := by
      rintro t ht hl
      have h1 : (s.ram.tok.observe i.tick).inUse = true := by
        have := hl.inUse
        rw [ht] at this
        exact this.symm
      obtain ⟨h2, h3, _⟩ := observe_inUse h1
      refine ⟨h3, i.tick, fun j p h => by cases h; rfl, ?_⟩
      have : (aged i s.ram).tok = s.ram.tok := h2
      rwa [this] at hl
    cases he with
    | quiet h' => exact Or.inl (aged' h h'.tok)
    | @token q _ _ z hq hm hu hn hz hr =>
      refine Or.inr ⟨i, q, rfl, hq, Match.right (s := s) hm (Or.inr hq), ?_, ?_⟩
      · rcases hout with ⟨a, h1, h2⟩ | ⟨_, h1, _⟩ | ⟨_, h1, _⟩
        · cases h1
          exact ⟨_, h2⟩
        · cases h1
        · cases h1
      · rw [hr]
        rfl
    | changed n _ _ _ _ hr =>
      rw [hr] at h ⊢
      exact Or.inl (aged' h (TokLe.refl _ _))
    | failed hq hf hr =>
      rw [hr] at h ⊢
      cases hf with
      | early => exact Or.inl (aged' h (TokLe.refl _ _))
      | unread => exact Or.inl (aged' h (TokLe.refl _ _))
      | wrong _ _ r' _ _ hr' =>
        rw [hr'] at h ⊢
        exact Or.inl (aged' h (TokLe.refl _ _))
      | right => exact Or.inl (aged' h (TokLe.refl _ _))
    | cut hq hf =>
      rcases hout with ⟨_, h1, _⟩ | ⟨_, h1, _⟩ | ⟨_, h1, _⟩ <;> cases h1
    | set _ _ hr _ =>
      rw [hr] at h ⊢
      exact Or.inl (aged' h (TokLe.refl _ _))
    | reset h' hr =>
      rw [hr] at h
      cases h
  · have hoth := step_other x s op env (fun i q h => hc ⟨i, q, h⟩)
    revert hoth h
    generalize step x s op env = p
    intro h hoth
    cases hoth with
    | boot h' hr =>
      rcases hr with ⟨_, hr⟩ | hr
      · subst hr; cases h
      · simp only at h; rw [hr] at h; cases h
    | reset h' hr =>
      rcases hr with ⟨_, hr⟩ | hr
      · subst hr; cases h
      · simp only at h; rw [hr] at h; cases h
    | u2f h' => exact Or.inl ⟨h'.tok.inUse ▸ h, _, fun i q h => absurd ⟨i, q, h⟩ hc, h'.tok⟩
    | u2fCut h' => cases h
    | admin _ _ _ h' hr =>
      rcases hr with ⟨_, hr⟩ | hr
      · subst hr; cases h
      · simp only at h ⊢
        rw [hr] at h ⊢
        exact Or.inl ⟨h, 0, fun i q h => absurd ⟨i, q, h⟩ hc, TokLe.refl _ _⟩

theorem Granted.snoc {s : St} {ops : List (Op × Env)} {t t' : Tok} {o : Op × Env} {now : UInt32} (h : Granted x s ops t)
    (hl : TokLe now t t') : Granted x s (ops ++ [o]) t' := by
  obtain ⟨pre, i, q, env, post, h1, h2, h3, h4, h5, h6, h7⟩ := h
  refine ⟨pre, i, q, env, post ++ [o], by rw [h1]; simp, h2, h3, h4, hl.token.trans h5, ?_, fun h hh => hl.rp h (h7 h hh)⟩
  rw [← hl.perms, UInt8.and_assoc, h6]

/-- A token is in use only if the PIN that was set was presented when it was requested; it has no more
permissions than were requested then, and keeps the relying party it was requested for. -/
theorem C53_token_needs_pin (hx : x.Sized) (s : St) (hs : s.ram.tok.inUse = false) (ops : List (Op × Env))
    (h : (run x s ops).1.ram.tok.inUse = true) : Granted x s ops (run x s ops).1.ram.tok := by
  induction ops using snocInduction with
  | h0 => rw [show (run x s []).1 = s from rfl, hs] at h; cases h
  | h l o ih =>
    obtain ⟨op, env⟩ := o
    rw [run_snoc] at h ⊢
    rcases tok_step hx (run x s l).1 op env h with ⟨h1, now, _, h2⟩ | ⟨i, q, rfl, hq, hr, ho, ht⟩
    · exact (ih h1).snoc h2
    · refine ⟨l, i, q, env, [], rfl, hq, hr, ho, ?_, ?_, ?_⟩
      · rw [ht]; rfl
      · rw [ht]
        exact UInt8.and_self
      · rw [ht]
        exact fun _ h => h

/-- One operation never gives authority to a token: a token that is in use afterwards was in use before,
with at least the same permissions and verification, and without losing a relying party it was bound to;
or the operation is a request for a token with the right PIN. -/
theorem C53_no_gain (hx : x.Sized) (s : St) (op : Op) (env : Env) (h : (step x s op env).1.ram.tok.inUse = true)
    (hr : ¬ Right x s op) :
    s.ram.tok.inUse = true ∧ (step x s op env).1.ram.tok.token = s.ram.tok.token ∧
      (∀ p, (step x s op env).1.ram.tok.perms &&& p ≠ 0 → s.ram.tok.perms &&& p ≠ 0) ∧
      ((step x s op env).1.ram.tok.uv = true → s.ram.tok.uv = true) ∧
      (∀ g, s.ram.tok.rp = some g → (step x s op env).1.ram.tok.rp = some g) := by
  rcases tok_step hx s op env h with ⟨h1, now, _, h2⟩ | ⟨i, q, rfl, hq, hr', ho, ht⟩
  · refine ⟨h1, h2.token, ?_, h2.uv, h2.rp⟩
    intro p hp hn
    apply hp
    rw [← h2.perms, UInt8.and_assoc, hn]
    exact UInt8.and_zero
  · exact absurd hr' hr

theorem wp_skip {α β : Type} {m : M α} {k : α → M β} {Q : β → Flash → Ram → Prop} {f : Flash} {r : Ram}
    (h : ∀ a f r, wp (fun _ => True) (k a) Q (fun _ _ _ => True) (fun _ _ => True) f r) :
    wp (fun _ => True) (m >>= k) Q (fun _ _ _ => True) (fun _ _ => True) f r :=
  wp_bind (wp_mono (wp_true _) (fun a f r _ => h a f r) (fun _ _ _ _ => trivial) (fun _ _ _ => trivial))

/-- What a token request with the right PIN gives: exactly the requested permissions and relying party. -/
theorem C53_token_as_requested (hx : x.Sized) (s : St) (i : In) (q : CpReq) (env : Env) (e : Bytes)
    (h : (step x s (.cbor i (.cp (.ok q))) env).2 = .resp (.token e)) :
    (q.sub = 5 ∨ q.sub = 9) ∧ Right x s (.cbor i (.cp (.ok q))) ∧
      (step x s (.cbor i (.cp (.ok q))) env).1.ram.tok.inUse = true ∧
      (step x s (.cbor i (.cp (.ok q))) env).1.ram.tok.token = i.rndTok ∧
      (step x s (.cbor i (.cp (.ok q))) env).1.ram.tok.perms = q.asked ∧
      (step x s (.cbor i (.cp (.ok q))) env).1.ram.tok.rp = q.binding := by
  have key : wp (fun _ => True) (handle x i (.cp (.ok q))) (fun a f' r' => a = .token e → (q.sub = 5 ∨ q.sub = 9) ∧
      Match x s.ram.ka q s.flash ∧ r'.tok = newTok i q s.ram.tok) (fun _ _ _ => True) (fun _ _ => True)
      s.flash (aged i s.ram) := by
    unfold handle clientPin
    simp only
    apply wp_ite <;> intro _
    · exact wp_skip fun _ _ _ => wp_pure (fun h => (nomatch h))
    apply wp_ite <;> intro _
    · exact wp_skip fun _ _ _ => wp_pure (fun h => (nomatch h))
    apply wp_ite <;> intro _
    · unfold cpSetPin
      exact wp_skip fun _ _ _ => wp_skip fun _ _ _ => wp_skip fun _ _ _ => wp_skip fun _ _ _ => wp_skip fun _ _ _ =>
        wp_skip fun _ _ _ => wp_pure (fun h => (nomatch h))
    apply wp_ite <;> intro _
    · unfold cpChangePin
      exact wp_skip fun _ _ _ => wp_skip fun _ _ _ => wp_skip fun _ _ _ => wp_skip fun _ _ _ => wp_skip fun _ _ _ =>
        wp_skip fun _ _ _ => wp_pure (fun h => (nomatch h))
    apply wp_ite <;> intro h5
    · refine wp_mono (wp_getToken x i q) ?_ (fun _ _ _ _ => trivial) (fun _ _ _ => trivial)
      rintro a f' r' ⟨hm, hu, hr, hc, z, hz, ha⟩ _
      exact ⟨by simpa using h5, hm, by rw [hr]; rfl⟩
    · exact wp_pure (fun h => (nomatch h))
  obtain ⟨r1, h1, h2⟩ := resp_of x i key h
  obtain ⟨hq, hm, ht⟩ := h1 rfl
  rw [h2]
  refine ⟨hq, Match.right (s := s) hm (Or.inr hq), ?_⟩
  show r1.tok.inUse = true ∧ r1.tok.token = _ ∧ r1.tok.perms = _ ∧ r1.tok.rp = _
  rw [ht]
  exact ⟨rfl, rfl, rfl, rfl⟩

/-! ### What a token is good for -/

theorem aged_inUse {s : St} {i : In} (h : (aged i s.ram).tok.inUse = true) :
    (aged i s.ram).tok = s.ram.tok ∧ s.ram.tok.inUse = true ∧ i.tick ≤ s.ram.tok.timeout := observe_inUse h

theorem mc_uv {s : St} {i : In} {q : McReq} {env : Env} {m : McResp}
    (h : (step x s (.cbor i (.mc (.ok q))) env).2 = .resp (.mc m)) (hv : m.ad.uv = true) :
    Authorized x s.ram.tok permMc q.rpHash q.cdh q.pinAuth (q.proto.getD 0) ∧ i.tick ≤ s.ram.tok.timeout := by
  obtain ⟨r1, ⟨m', hm, hd⟩, _⟩ := resp_of x i (wp_makeCredential x i q) h
  cases hm
  have ha := hd.uv hv
  obtain ⟨h1, h2, h3⟩ := aged_inUse ha.inUse
  rw [h1] at ha
  exact ⟨ha, h3⟩

theorem ga_uv {s : St} {i : In} {q : GaReq} {env : Env} {g : GaResp}
    (h : (step x s (.cbor i (.ga (.ok q))) env).2 = .resp (.ga g)) (hv : g.ad.uv = true) :
    Authorized x s.ram.tok permGa q.rpHash q.cdh q.pinAuth (q.proto.getD 0) ∧ i.tick ≤ s.ram.tok.timeout := by
  obtain ⟨q', g', hq, hg, hb⟩ := ga_resp x i h
  cases hq
  cases hg
  obtain ⟨d, f1, r1, _, _, _, _, _, ha, _, r', hd, _⟩ := hb.done
  have ha := ha (hd.uv ▸ hv)
  obtain ⟨h1, h2, h3⟩ := observe_inUse ha.inUse
  rw [h1] at ha
  exact ⟨ha, h3⟩

theorem cm_auth {s : St} {i : In} {q : CmReq} {env : Env} {a : Resp}
    (hq : q.sub = 1 ∨ q.sub = 2 ∨ q.sub = 4 ∨ q.sub = 6 ∨ q.sub = 7)
    (h : (step x s (.cbor i (.cm (.ok q))) env).2 = .resp a) :
    MayManage x s.ram.tok permCm (q.sub :: q.params) q.pinAuth q.proto ∧ cmScope q s.ram.tok ∧ i.tick ≤ s.ram.tok.timeout := by
  have hq' : cmAuthed q.sub = true := by
    rcases hq with h | h | h | h | h <;> (rw [h]; rfl)
  obtain ⟨r1, ⟨hm, hc⟩, _⟩ := resp_of x i (s := s) (q := .cm (.ok q)) (wp_cm x i q hq') h
  obtain ⟨h1, h2, h3⟩ := aged_inUse hm.inUse
  rw [h1] at hm hc
  exact ⟨hm, hc, h3⟩

theorem lb_auth {s : St} {i : In} {q : LbReq} {env : Env} {a : Resp} (hq : q.get = none) (hp : s.flash.pinHash ≠ none)
    (h : (step x s (.cbor i (.lb (.ok q))) env).2 = .resp a) :
    i.tick ≤ s.ram.tok.timeout ∧ ∃ auth proto, q.pinAuth = some auth ∧ q.proto = some proto ∧
      MayManage x s.ram.tok permLbw (lbMsg x q) auth proto := by
  have key := wp_lbSet x i (f := s.flash) (r := aged i s.ram) q
  have he : lbSet x i q = handle x i (.lb (.ok q)) := by
    unfold handle largeBlobs
    simp only [hq]
  rw [he] at key
  obtain ⟨r1, hm, _⟩ := resp_of x i key h
  rcases hm with hm | ⟨auth, proto, h3, h4, hm⟩
  · exfalso
    cases hh : s.flash.pinHash with
    | none => exact hp hh
    | some p =>
      obtain ⟨h1, h2⟩ := pinHash_some hh
      rw [h1] at hm
      cases hm
      exact h2 rfl
  · obtain ⟨h1, h2, h5⟩ := aged_inUse hm.inUse
    rw [h1] at hm
    exact ⟨h5, auth, proto, h3, h4, hm⟩

/-- A registration that claims user verification carries a valid authentication by a token that was given
for the right PIN, with permission to register, and for this relying party if it was bound to one. -/
theorem C53_registration (hx : x.Sized) (s : St) (hs : s.ram.tok.inUse = false) (ops : List (Op × Env))
    (i : In) (q : McReq) (env : Env) (m : McResp)
    (h : (step x (run x s ops).1 (.cbor i (.mc (.ok q))) env).2 = .resp (.mc m)) (hv : m.ad.uv = true) :
    Granted x s ops (run x s ops).1.ram.tok ∧
      Authorized x (run x s ops).1.ram.tok permMc q.rpHash q.cdh q.pinAuth (q.proto.getD 0) := by
  have ha := (mc_uv h hv).1
  exact ⟨C53_token_needs_pin hx s hs ops ha.inUse, ha⟩

/-- An assertion that claims user verification carries such an authentication with permission to assert. -/
theorem C53_assertion (hx : x.Sized) (s : St) (hs : s.ram.tok.inUse = false) (ops : List (Op × Env))
    (i : In) (q : GaReq) (env : Env) (g : GaResp)
    (h : (step x (run x s ops).1 (.cbor i (.ga (.ok q))) env).2 = .resp (.ga g)) (hv : g.ad.uv = true) :
    Granted x s ops (run x s ops).1.ram.tok ∧
      Authorized x (run x s ops).1.ram.tok permGa q.rpHash q.cdh q.pinAuth (q.proto.getD 0) := by
  have ha := (ga_uv h hv).1
  exact ⟨C53_token_needs_pin hx s hs ops ha.inUse, ha⟩

theorem run_append (s : St) (a b : List (Op × Env)) : (run x s (a ++ b)).1 = (run x (run x s a).1 b).1 := by
  induction a generalizing s with
  | nil => rfl
  | cons o l ih => exact ih _

/-- A further assertion (getNextAssertion) that claims user verification continues a getAssertion, answered
with the same claim, for the same relying party and client data, which carried such an authentication. -/
theorem C53_next_assertion (hx : x.Sized) (s : St) (hs : s.ram.tok.inUse = false) (hl : ¬ s.ram.going)
    (ops : List (Op × Env)) (hu : ∀ u, .ub u ∉ (run x s ops).2) (i : In) (env : Env) (g : GaResp)
    (h : (step x (run x s ops).1 (.cbor i .gna) env).2 = .resp (.ga g)) (hv : g.ad.uv = true) :
    ∃ pre j q env' g' post, ops = pre ++ (.cbor j (.ga (.ok q)), env') :: post ∧
      (step x (run x s pre).1 (.cbor j (.ga (.ok q))) env').2 = .resp (.ga g') ∧ g'.ad.uv = true ∧
      g.ad.rp = q.rpHash ∧ g.cdh = q.cdh ∧ Granted x s pre (run x s pre).1.ram.tok ∧
      Authorized x (run x s pre).1.ram.tok permGa q.rpHash q.cdh q.pinAuth (q.proto.getD 0) := by
  obtain ⟨g0, d, r', hg, h1, h2, h3, hd, h5⟩ := gna_resp x i h
  cases hg
  obtain ⟨pre, j, q, env', g', post, e, ho, hc⟩ := session x hl ops hu h1
  obtain ⟨q', g'', hq, hg, hb⟩ := ga_resp x j ho
  cases hq
  cases hg
  obtain ⟨d', f1, r1, _, _, _, hreq, _, _, _, r2, hd2, hr2⟩ := hb.done
  obtain ⟨hs1, hq1⟩ := hd2.ramReq
  obtain ⟨hs2, hq2⟩ := hc.req
  have hreq' : (run x s ops).1.ram.ga.req = { q with hs := hs2 } := by
    rw [hq2, hr2]
    show { r2.ga.req with hs := hs2 } = _
    rw [hq1, hreq]
  have huv : g'.ad.uv = true := by
    have h1 : (run x s ops).1.ram.ga.uv = r2.ga.uv := by rw [hc.uv, hr2]
    rw [hd2.uv, ← hd2.ramUv, ← h1]
    have := hd.uv
    rw [hv] at this
    exact this.symm
  have := C53_assertion hx s hs pre j q env' g' ho huv
  refine ⟨pre, j, q, env', g', post, e, ho, huv, ?_, ?_, this⟩
  · have := hd.rp
    rw [this]
    show (run x s ops).1.ram.ga.req.rpHash = _
    rw [hreq']
  · have := hd.cdh
    rw [this]
    show (run x s ops).1.ram.ga.req.cdh = _
    rw [hreq']

/-- The subcommands of credential management that show metadata, start an enumeration, delete or update
succeed only with a valid authentication by a token given for the right PIN, with permission to manage
credentials. -/
theorem C53_management (hx : x.Sized) (s : St) (hs : s.ram.tok.inUse = false) (ops : List (Op × Env))
    (i : In) (q : CmReq) (env : Env) (a : Resp) (hq : q.sub = 1 ∨ q.sub = 2 ∨ q.sub = 4 ∨ q.sub = 6 ∨ q.sub = 7)
    (h : (step x (run x s ops).1 (.cbor i (.cm (.ok q))) env).2 = .resp a) :
    Granted x s ops (run x s ops).1.ram.tok ∧
      MayManage x (run x s ops).1.ram.tok permCm (q.sub :: q.params) q.pinAuth q.proto ∧ cmScope q (run x s ops).1.ram.tok := by
  have ha := cm_auth hq h
  exact ⟨C53_token_needs_pin hx s hs ops ha.1.inUse, ha.1, ha.2.1⟩

/-- While a PIN is set, a fragment of the large-blob array is accepted only with a valid authentication
by a token given for the right PIN, with permission to write large blobs. -/
theorem C53_large_blobs (hx : x.Sized) (s : St) (hs : s.ram.tok.inUse = false) (ops : List (Op × Env))
    (i : In) (q : LbReq) (env : Env) (a : Resp) (hq : q.get = none) (hp : (run x s ops).1.flash.pinHash ≠ none)
    (h : (step x (run x s ops).1 (.cbor i (.lb (.ok q))) env).2 = .resp a) :
    Granted x s ops (run x s ops).1.ram.tok ∧ ∃ auth proto, q.pinAuth = some auth ∧ q.proto = some proto ∧
      MayManage x (run x s ops).1.ram.tok permLbw (lbMsg x q) auth proto := by
  obtain ⟨_, auth, proto, h1, h2, h3⟩ := lb_auth hq hp h
  exact ⟨C53_token_needs_pin hx s hs ops h3.inUse, auth, proto, h1, h2, h3⟩

end Verif.Ctap
