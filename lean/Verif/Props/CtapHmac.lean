import Verif.Props.CtapU2fEx
import Verif.Lemmas.CtapBlobKey
/-
C104: the hmac-secret extension gives the platform the right outputs, the same ones until a reset.
-/
namespace Verif.Ctap
open Cmd

variable {x : Ext}

/-- The platform, which shares `z` with the device, decrypts the output of the extension in `g` to the outputs for
`salts` under the secret of the credential that signed. -/
def Yields (x : Ext) (he z salts : Bytes) (proto : Nat) (g : GaResp) : Prop :=
  ∃ o, g.hmacSecret = some o ∧ decrypt x z o proto = some (saltOutputs x (credSecret x he g.cid g.ad.uv) salts)

theorem hmacOut_eq (law : x.Lawful) {he c salts : Bytes} {n : Nat} {uv : Bool} (hn : n = 32 ∨ n = 64) (hs : salts.length = n) :
    hmacOut x he c salts n uv = saltOutputs x (credSecret x he c uv) salts := by
  unfold hmacOut saltOutputs credSecret
  rcases hn with rfl | rfl
  · simp [hs]
  · have : (salts.drop 32).take 32 = salts.drop 32 := List.take_of_length_le (by simp [hs])
    simp [hs, this]

theorem saltOutputs_len (law : x.Lawful) {c salts : Bytes} : (saltOutputs x c salts).length % 16 = 0 := by
  unfold saltOutputs
  rw [List.length_append, law.hmac]
  split
  · rw [law.hmac]
  · rfl

theorem decrypt_encrypt (law : x.Lawful) {i : In} (hi : i.rndIv.length = 16) {z p : Bytes} {proto : Nat} (hp : proto = 1 ∨ proto = 2)
    (hl : p.length % 16 = 0) : decrypt x z (encrypt x i z p proto) proto = some p := by
  unfold decrypt encrypt
  rcases hp with rfl | rfl
  · simp [law.inv _ _ _ hl]
  · simp only [show (2 == 1) = false from rfl, Bool.false_eq_true, if_false, show ((2 : Nat) == 2) = true from rfl, if_true]
    rw [if_neg (by simp [hi]), List.take_left' hi, List.drop_left' hi, law.inv _ _ _ hl]

theorem decrypt_len (law : x.Lawful) {z b s : Bytes} {proto : Nat} (hp : proto = 1 ∨ proto = 2) (h : decrypt x z b proto = some s) :
    s.length = if proto = 1 then b.length else b.length - 16 := by
  unfold decrypt at h
  rcases hp with rfl | rfl
  · cases h
    exact law.len _ _ _
  · simp only [show (2 == 1) = false from rfl, Bool.false_eq_true, if_false] at h
    split at h
    · cases h
    · cases h
      rw [law.len, List.length_drop]
      rfl

/-- What an answer to getAssertion with the extension means, and what is kept for getNextAssertion. -/
theorem ga_salted (law : x.Lawful) {s : St} {i : In} {q : GaReq} {h : HmacSecret} (hq : q.hs = some h) (hlen : h.saltLen ≤ h.salt.length)
    (hi : i.rndIv.length = 16) {env : Env} {g : GaResp} (hg : (step x s (.cbor i (.ga (.ok q))) env).2 = .resp (.ga g)) :
    ∃ he z salts, rdCert (·.he) s.flash = some he ∧ Salted x s.ram.ka h z salts ∧ g.ad.up = true ∧ Yields x he z salts h.proto g ∧
      salts.length = h.plain ∧
      (1 ≠ (step x s (.cbor i (.ga (.ok q))) env).1.ram.ga.num →
        (step x s (.cbor i (.ga (.ok q))) env).1.ram.ga.req.hs = some { h with key := z, salt := salts }) := by
  obtain ⟨f1, r1, e1, e2, e3, e4, _, e5, _⟩ := ga_ext hg
  obtain ⟨o, ho, r0, a1, a2, a3, a4, a5, he, h', b1, b2, _, b4, b5, b6, b7⟩ := e5 h (by rw [e2]; exact hq)
  obtain ⟨c1, z, p, c2, c3, c4, rfl⟩ := b2 (a1.trans e3)
  have hpl : p.length = h.plain := by
    rw [decrypt_len law b4 c4, List.length_take, Nat.min_eq_left hlen]
    rfl
  refine ⟨he, z, p, ?_, ⟨?_, authenticates_iff.mp c3, c4, by rw [hpl]; exact b5⟩, a5 ▸ c1, ⟨o, ho, ?_⟩, hpl, ?_⟩
  · rw [← b1]
    unfold rdCert
    rw [e1]
  · rw [← e4, ← a2]
    exact c2
  · rw [b6, hmacOut_eq law b5 hpl, a4]
    exact decrypt_encrypt law hi b4 (saltOutputs_len law)
  · intro hnum
    rw [b7, if_neg]
    rw [a1, e3, a3]
    exact hnum

/-- The output of the extension. If a request for the outputs is answered, then the platform shares a secret with the device and
sent one or two salts under it, authenticated; the user was present; and what the platform decrypts is HMAC(secret, salt) for
each salt, where the secret is that of the credential that signs, with or without user verification as the
answer says. -/
theorem C104_output (law : x.Lawful) (s : St) (i : In) (hi : i.rndIv.length = 16) (q : GaReq) (h : HmacSecret) (hq : q.hs = some h)
    (hlen : h.saltLen ≤ h.salt.length) (env : Env) (g : GaResp) (hg : (step x s (.cbor i (.ga (.ok q))) env).2 = .resp (.ga g)) :
    ∃ he z salts, rdCert (·.he) s.flash = some he ∧ Salted x s.ram.ka h z salts ∧ g.ad.up = true ∧ Yields x he z salts h.proto g := by
  obtain ⟨he, z, salts, h1, h2, h3, h4, _⟩ := ga_salted law hq hlen hi hg
  exact ⟨he, z, salts, h1, h2, h3, h4⟩

/-- Who does not ask gets no output. -/
theorem C104_unasked (s : St) (i : In) (q : GaReq) (hq : q.hs = none) (env : Env) (g : GaResp)
    (hg : (step x s (.cbor i (.ga (.ok q))) env).2 = .resp (.ga g)) : g.hmacSecret = none := by
  obtain ⟨f1, r1, _, e2, _, _, e5, _⟩ := ga_ext hg
  exact e5 (by rw [e2]; exact hq)

/-- The device secret stays until a reset. -/
theorem he_kept (ops : List (Op × Env)) (s : St) (hl : s.flash.lb.isSome = true)
    (hops : ∀ o ∈ ops, o.1.resets = false ∧ (o.1.powers = true → noFail o.2)) :
    rdCert (·.he) (run x s ops).1.flash = rdCert (·.he) s.flash := by
  induction ops generalizing s with
  | nil => rfl
  | cons o ops ih =>
    obtain ⟨op, e⟩ := o
    obtain ⟨h1, h2⟩ := hops (op, e) List.mem_cons_self
    rw [run_cons]
    have hsec := secret_step (x := x) s op e h1 h2 hl
    exact (ih _ (hsec.lb hl) fun o ho => hops o (List.mem_cons_of_mem _ ho)).trans hsec.he

/-- The outputs are the same until a reset: two requests, however far apart, with whatever key agreement, protocol and power cuts between,
that send the same salts and are answered by the same credential, both with or both without user verification, give the platform
the same outputs. -/
theorem C104_stable (law : x.Lawful) (s : St) (hl : s.flash.lb.isSome = true) (i : In) (hi : i.rndIv.length = 16) (q : GaReq) (h : HmacSecret)
    (hq : q.hs = some h) (hlen : h.saltLen ≤ h.salt.length) (env : Env) (g : GaResp)
    (hg : (step x s (.cbor i (.ga (.ok q))) env).2 = .resp (.ga g))
    (after : List (Op × Env)) (hops : ∀ o ∈ after, o.1.resets = false ∧ (o.1.powers = true → noFail o.2))
    (t : St) (ht : t = (run x (step x s (.cbor i (.ga (.ok q))) env).1 after).1)
    (j : In) (hj : j.rndIv.length = 16) (q' : GaReq) (h' : HmacSecret) (hq' : q'.hs = some h') (hlen' : h'.saltLen ≤ h'.salt.length)
    (env' : Env) (g' : GaResp) (hg' : (step x t (.cbor j (.ga (.ok q'))) env').2 = .resp (.ga g'))
    (hcid : g'.cid = g.cid) (huv : g'.ad.uv = g.ad.uv) :
    ∃ z salts z' salts' o o' p p', Salted x s.ram.ka h z salts ∧ Salted x t.ram.ka h' z' salts' ∧
      g.hmacSecret = some o ∧ decrypt x z o h.proto = some p ∧ g'.hmacSecret = some o' ∧ decrypt x z' o' h'.proto = some p' ∧
      (salts = salts' → p = p') := by
  obtain ⟨he, z, salts, a1, a2, a3, o, a4, a5⟩ := C104_output law s i hi q h hq hlen env g hg
  obtain ⟨he', z', salts', b1, b2, b3, o', b4, b5⟩ := C104_output law t j hj q' h' hq' hlen' env' g' hg'
  have hsec := secret_step (x := x) s (.cbor i (.ga (.ok q))) env rfl nofun hl
  have := he_kept (x := x) after _ (hsec.lb hl) hops
  rw [← ht, b1, hsec.he, a1] at this
  cases this
  refine ⟨z, salts, z', salts', o, o', _, _, a2, b2, a4, a5, b4, b5, ?_⟩
  rintro rfl
  rw [hcid, huv]

/-- With and without user verification the secrets are derived with different keys. -/
theorem C104_uv (he : Bytes) (h : he ≠ []) (c : Bytes) :
    ∃ k k', k ≠ k' ∧ k.length = k'.length ∧ ∀ x, credSecret x he c true = x.hmac k ((Cid.nonce c).take 16) ∧
      credSecret x he c false = x.hmac k' ((Cid.nonce c).take 16) := by
  refine ⟨he.map (~~~ ·), he, ?_, by simp, fun x => ⟨rfl, rfl⟩⟩
  cases he with
  | nil => exact absurd rfl h
  | cons b l =>
    intro e
    injection e with e _
    have := congrArg (fun (v : UInt8) => v.toBitVec.getLsbD 0) e
    simp at this

/-- What getNextAssertion has of the request. -/
structure Keeping (h : HmacSecret) (z salts he : Bytes) (s : St) : Prop where
  ctr : s.ram.ga.ctr ≠ 0
  hs : s.ram.ga.ctr < s.ram.ga.num → s.ram.ga.req.hs = some { h with key := z, salt := salts }
  he : rdCert (·.he) s.flash = some he

/-- The answers to getNextAssertion carry the outputs for the same salts, under the secrets of the other credentials:
after any request for the outputs that was answered, in any history up to the next getAssertion. -/
theorem C104_next (law : x.Lawful) (s : St) (hl : s.flash.lb.isSome = true) (i : In) (hi : i.rndIv.length = 16) (q : GaReq) (h : HmacSecret)
    (hq : q.hs = some h) (hlen : h.saltLen ≤ h.salt.length) (env : Env) (g : GaResp)
    (hg : (step x s (.cbor i (.ga (.ok q))) env).2 = .resp (.ga g))
    (ops : List (Op × Env)) (hops : ∀ o ∈ ops, o.1.resets = false ∧ (o.1.powers = true → noFail o.2))
    (hno : ∀ o ∈ ops, ∀ j q', o.1 ≠ .cbor j (.ga q')) (hiv : ∀ o ∈ ops, ∀ j, o.1 = .cbor j .gna → j.rndIv.length = 16)
    (hu : ∀ u, .ub u ∉ (run x (step x s (.cbor i (.ga (.ok q))) env).1 ops).2) :
    ∃ he z salts, Salted x s.ram.ka h z salts ∧ Yields x he z salts h.proto g ∧
      ∀ g' ∈ assertions (run x (step x s (.cbor i (.ga (.ok q))) env).1 ops).2, Yields x he z salts h.proto g' := by
  obtain ⟨he, z, salts, a1, a2, a3, a4, a5, a6⟩ := ga_salted law hq hlen hi hg
  refine ⟨he, z, salts, a2, a4, ?_⟩
  have hsec := secret_step (x := x) s (.cbor i (.ga (.ok q))) env rfl nofun hl
  have hpn : h.plain = 32 ∨ h.plain = 64 := a5 ▸ a2.len
  have hpp : h.proto = 1 ∨ h.proto = 2 := by
    obtain ⟨_, r1, _, e2, _, _, _, e5, _⟩ := ga_ext hg
    obtain ⟨_, _, _, _, _, _, _, _, _, _, _, _, _, b4, _⟩ := e5 h (by rw [e2]; exact hq)
    exact b4
  have hk : Keeping h z salts he (step x s (.cbor i (.ga (.ok q))) env).1 := by
    obtain ⟨q', g', hq', hgg, hb⟩ := ga_resp x i hg
    cases hq'
    cases hgg
    obtain ⟨d, f1, r1, _, _, h3, _, _, _, _, r', hd, hr'⟩ := hb.done
    have hc : (step x s (.cbor i (.ga (.ok q))) env).1.ram.ga.ctr = 1 := by
      rw [hr']
      show r'.ga.ctr = 1
      rw [hd.ramCtr, h3]
    refine ⟨by rw [hc]; exact Nat.one_ne_zero, fun hlt => a6 (fun e => ?_), hsec.he.trans a1⟩
    rw [hc, ← e] at hlt
    exact absurd hlt (Nat.lt_irrefl _)
  have hl1 := hsec.lb hl
  revert hl1 hu hk
  generalize (step x s (.cbor i (.ga (.ok q))) env).1 = t
  intro hu hk hl1
  replace hk : t.ram.going → Keeping h z salts he t := fun _ => hk
  clear hg
  induction ops generalizing t with
  | nil => intro g' hg'; cases hg'
  | cons o ops ih =>
    obtain ⟨op, e⟩ := o
    have hu1 : ∀ u, (step x t op e).2 ≠ .ub u := fun u h => hu u (by
      show _ ∈ (step x t op e).2 :: (run x (step x t op e).1 ops).2
      rw [← h]; exact List.mem_cons_self ..)
    have hu2 : ∀ u, .ub u ∉ (run x (step x t op e).1 ops).2 := fun u h => hu u (List.mem_cons_of_mem _ h)
    obtain ⟨o1, o2⟩ := hops (op, e) List.mem_cons_self
    have hsec := secret_step (x := x) t op e o1 o2 hl1
    have next := ih (fun o ho => hops o (List.mem_cons_of_mem _ ho)) (fun o ho => hno o (List.mem_cons_of_mem _ ho))
      (fun o ho => hiv o (List.mem_cons_of_mem _ ho)) (step x t op e).1 hu2 (hsec.lb hl1)
    have other : (∀ g', (step x t op e).2 ≠ .resp (.ga g')) → ((step x t op e).1.ram.going → Keeping h z salts he (step x t op e).1) →
        ∀ g' ∈ assertions (run x t ((op, e) :: ops)).2, Yields x he z salts h.proto g' := by
      intro hn hk' g' hg'
      refine next hk' g' ?_
      have hg' : g' ∈ assertions ((step x t op e).2 :: (run x (step x t op e).1 ops).2) := hg'
      unfold assertions at hg' ⊢
      rw [List.filterMap_cons] at hg'
      revert hg'
      generalize hout : (step x t op e).2 = out at *
      cases out with
      | resp a =>
        cases a with
        | ga b => exact absurd rfl (hn b)
        | _ => exact id
      | _ => exact id
    by_cases hc : ∃ j, op = .cbor j .gna
    · obtain ⟨j, rfl⟩ := hc
      by_cases hr : ∃ a, (step x t (.cbor j .gna) e).2 = .resp a
      · obtain ⟨a, ha⟩ := hr
        obtain ⟨g1, d, r', rfl, d1, d2, _, d4, d5⟩ := gna_resp x j ha
        obtain ⟨k1, k2, k3⟩ := hk d1
        have k2 := k2 d2
        obtain ⟨_, x1, _⟩ := gna_ext ha
        obtain ⟨o, ho, r0, b1, b2, b3, b4, b5, he', h', c1, _, c3, c4, c5, c6, c7⟩ := x1 _ k2
        have hh' := c3 (by rw [b1]; exact k1)
        subst hh'
        rw [k3] at c1
        cases c1
        have hy : Yields x he z salts h.proto g1 := by
          refine ⟨o, ho, ?_⟩
          rw [c6]
          show decrypt x z (encrypt x j z (hmacOut x he g1.cid salts h.plain r0.ga.uv) h.proto) h.proto = _
          rw [hmacOut_eq law hpn a5, b4]
          exact decrypt_encrypt law (hiv (.cbor j .gna, e) List.mem_cons_self j rfl) hpp (saltOutputs_len law)
        intro g' hg'
        have hg' : g' ∈ assertions ((step x t (.cbor j .gna) e).2 :: (run x (step x t (.cbor j .gna) e).1 ops).2) := hg'
        rw [ha] at hg'
        rcases List.mem_cons.mp (show g' ∈ g1 :: assertions (run x (step x t (.cbor j .gna) e).1 ops).2 from hg') with rfl | hg'
        · exact hy
        · refine next (fun _ => ⟨?_, fun hlt => ?_, hsec.he.trans k3⟩) g' hg'
          · rw [d5]
            show r'.ga.ctr ≠ 0
            rw [d4.ramCtr]
            exact Nat.succ_ne_zero _
          · rw [c7, if_neg]
            intro hlast
            rw [b1, b3] at hlast
            have : (step x t (.cbor j .gna) e).1.ram.ga.ctr = t.ram.ga.ctr + 1 := by
              rw [d5]
              exact d4.ramCtr
            omega
      · refine other (fun g' hg' => hr ⟨_, hg'⟩) (fun hgo => ?_)
        exact absurd (step_going x j hu1 hgo).1 hr
    · refine other (fun g' hg' => ?_) (fun hgo => ?_)
      · obtain ⟨j, q', rfl⟩ := resp_cbor x hg'
        cases q' with
        | gna => exact hc ⟨j, rfl⟩
        | ga q'' => exact hno _ List.mem_cons_self j q'' rfl
        | other c => exact absurd hg' (other_not_resp x j)
        | mc q'' =>
          cases q'' with
          | error c =>
            obtain ⟨_, h, _⟩ := resp_of x j (q := .mc (.error c)) (Q := fun _ _ _ => False) (by unfold handle; exact wp_fail trivial) hg'
            exact h.elim
          | ok q'' =>
            obtain ⟨_, ⟨m, hm, _⟩, _⟩ := resp_of x j (q := .mc (.ok q'')) (wp_makeCredential x j q'') hg'
            cases hm
        | _ =>
          have := resp_of x j (s := t) (plain_handle x j (by simp [Req.cmd]) (by simp [Req.cmd]) (by simp [Req.cmd]) _ _) hg'
          obtain ⟨_, hpl, _⟩ := this
          exact hpl
      · by_cases hcb : ∃ j q', op = .cbor j q'
        · obtain ⟨j, q', rfl⟩ := hcb
          obtain ⟨⟨a, ha⟩, hcmd⟩ := step_going x j hu1 hgo
          cases q' with
          | gna => exact absurd ⟨j, rfl⟩ hc
          | ga q'' => exact absurd rfl (hno _ List.mem_cons_self j q'')
          | other c => exact absurd ha (other_not_resp x j)
          | _ => exact absurd hcmd (by simp [Req.cmd])
        · obtain ⟨f1, f2, f3, f4⟩ := step_aside x (fun j q' e => hcb ⟨j, q', e⟩) hgo
          obtain ⟨k1, k2, k3⟩ := hk f1
          exact ⟨by rw [f3]; exact k1, by rw [f3]; exact k2, hsec.he.trans k3⟩

/-- The credential of a response and the large-blob key given with it. -/
def Resp.blobKey : Resp → Option (Bytes × Bytes)
  | .mc m => do return (← m.ad.att, ← m.lbk)
  | .ga g => do return (g.cid, ← g.lbk)
  | .cred c => do return (c.cid, ← c.lbk)
  | _ => none

theorem blobKey_of {s : St} {op : Op} {env : Env} {a : Resp} (h : (step x s op env).2 = .resp a) {c k : Bytes} (hk : a.blobKey = some (c, k)) :
    BlobKeyOf x s.flash c k := by
  obtain ⟨i, q, rfl⟩ := resp_cbor x h
  cases q with
  | mc q =>
    cases q with
    | error e =>
      obtain ⟨_, h, _⟩ := resp_of x i (q := .mc (.error e)) (Q := fun _ _ _ => False) (by unfold handle; exact wp_fail trivial) h
      exact h.elim
    | ok q =>
      obtain ⟨_, ⟨m, rfl, hd⟩, _⟩ := resp_of x i (q := .mc (.ok q)) (wp_makeCredential x i q) h
      cases ha : m.ad.att with
      | none => simp [Resp.blobKey, ha] at hk
      | some c' =>
        cases hl : m.lbk with
        | none => simp [Resp.blobKey, hl] at hk
        | some k' =>
          simp [Resp.blobKey, ha, hl] at hk
          obtain ⟨rfl, rfl⟩ := hk
          obtain ⟨c1, h1, h2⟩ := hd.lbk _ hl
          rw [ha] at h1
          cases h1
          exact h2
  | ga q =>
    obtain ⟨q', g, rfl, rfl, _⟩ := ga_resp x i h
    obtain ⟨f1, r1, e1, _, _, _, _, _, e5⟩ := ga_ext h
    cases hl : g.lbk with
    | none => simp [Resp.blobKey, hl] at hk
    | some k' =>
      simp [Resp.blobKey, hl] at hk
      obtain ⟨rfl, rfl⟩ := hk
      exact BlobKeyOf.cert e1 (e5 _ hl)
  | gna =>
    obtain ⟨g, _, _, rfl, _⟩ := gna_resp x i h
    obtain ⟨_, _, e5⟩ := gna_ext h
    cases hl : g.lbk with
    | none => simp [Resp.blobKey, hl] at hk
    | some k' =>
      simp [Resp.blobKey, hl] at hk
      obtain ⟨rfl, rfl⟩ := hk
      exact e5 _ hl
  | other e => exact absurd h (other_not_resp x i)
  | cm q =>
    cases a with
    | cred c' =>
      cases hl : c'.lbk with
      | none => simp [Resp.blobKey, hl] at hk
      | some k' =>
        simp [Resp.blobKey, hl] at hk
        obtain ⟨rfl, rfl⟩ := hk
        exact cm_key x h hl
    | mc | ga =>
      obtain ⟨_, hpl, _⟩ := resp_of x i (plain_handle x i (q := .cm q) (by simp [Req.cmd]) (by simp [Req.cmd]) (by simp [Req.cmd]) _ _) h
      exact hpl.elim
    | _ => cases hk
  | _ =>
    obtain ⟨_, hpl, _⟩ := resp_of x i (keyless_handle x i (by simp [Req.cmd]) (by simp [Req.cmd]) (by simp [Req.cmd]) (by simp [Req.cmd]) _ _) h
    cases a with
    | mc | ga | cred => exact hpl.elim
    | _ => cases hk

/-- The large-blob key of a credential is the same until a reset, whether makeCredential, getAssertion, getNextAssertion or
credentialManagement gives it. -/
theorem C104_blobKey (s : St) (hl : s.flash.lb.isSome = true) (op op' : Op) (env env' : Env) (a a' : Resp) (c k k' : Bytes)
    (hr : op.resets = false) (hp : op.powers = true → noFail env)
    (ha : (step x s op env).2 = .resp a) (hk : a.blobKey = some (c, k))
    (after : List (Op × Env)) (hops : ∀ o ∈ after, o.1.resets = false ∧ (o.1.powers = true → noFail o.2))
    (ha' : (step x (run x (step x s op env).1 after).1 op' env').2 = .resp a') (hk' : a'.blobKey = some (c, k')) : k' = k := by
  have hsec := secret_step (x := x) s op env hr hp hl
  obtain ⟨he, h1, rfl⟩ := blobKey_of ha hk
  obtain ⟨he', h1', rfl⟩ := blobKey_of ha' hk'
  rw [he_kept (x := x) after _ (hsec.lb hl) hops, hsec.he, h1] at h1'
  cases h1'
  rfl

end Verif.Ctap
