import Verif.Props.CtapLifeEx
/-
C103: a U2F registration lasts until a reset. The key handle is recognised, and signs with the registered key, for its
application only.
-/
namespace Verif.Ctap
open Cmd

variable {x : Ext}

/-- The key handle `c` was made by the device with the secret `k` for the application `app`. -/
def OwnHandle (x : Ext) (k app c : Bytes) : Prop := Cid.rp c = app ∧ Authentic x k c

/-- The user touched the device for this U2F command, or it came over NFC. -/
def In.touched (i : In) : Prop := i.nfc = true ∨ i.touch = true

/-- What U2F authentication answers when the storage works. -/
inductive Answers (x : Ext) (k : Bytes) (n : UInt32) (i : In) (chal app c : Bytes) (check : Bool) : Out → Prop where
  /-- not a handle of this device and application: "wrong data" -/
  | foreign (h : ¬ OwnHandle x k app c) : Answers x k n i chal app c check (.err swData)
  /-- one of its handles, but only a check was asked for: "conditions not satisfied" -/
  | known (h : OwnHandle x k app c) (hc : check = true) : Answers x k n i chal app c check (.err swTouch)
  /-- one of its handles, but nobody touched the device: "conditions not satisfied" -/
  | untouched (h : OwnHandle x k app c) (hc : ¬ i.touched) : Answers x k n i chal app c check (.err swTouch)
  | signed (h : OwnHandle x k app c) (hc : check = false) (ht : i.touched) :
      Answers x k n i chal app c check (.u2f (.signed (n + 1) (khPri x k (Cid.nonce c)) app chal))

theorem wp_increase_ok {f : Flash} {r : Ram} {n : UInt32} {Q : UInt32 → Flash → Ram → Prop} {E : Err → Flash → Ram → Prop}
    {X : Flash → Ram → Prop} (hn : rdCert (·.ctr) f = some n) (h : ∀ f', Q (n + 1) f' r) :
    wp (fun a => a = .ok) increaseCounter Q E X f r := by
  unfold increaseCounter
  apply wp_bind
  apply wp_rdOr
  · intro c hc
    rw [hn] at hc
    cases hc
    apply wp_bind
    apply wp_wrOr
    · intro f' _
      exact wp_pure (h f')
    · intro hu
      exfalso
      unfold rdCert at hn
      unfold updCert at hu
      cases hc : f.cert <;> rw [hc] at hn hu <;> contradiction
    · intro h; cases h
    · intro h; cases h
  · intro h; rw [hn] at h; cases h
  · intro h; cases h
  · intro h; cases h

/-- When the storage works, U2F authentication answers as it should. -/
theorem wp_u2fAnswers {f : Flash} {r : Ram} {k : Bytes} {n : UInt32} (i : In) (chal app c : Bytes) (check : Bool)
    (hk : rdCert (·.kh) f = some k) (hn : rdCert (·.ctr) f = some n) :
    wp (fun a => a = .ok) (u2f x i (.authenticate chal app c check))
      (fun a _ _ => Answers x k n i chal app c check (.u2f a))
      (fun e _ _ => ∃ b, e = .code b ∧ Answers x k n i chal app c check (.err b)) (fun _ _ => False) f r := by
  have nope : ∀ {a : Prop}, Fault.fail = Fault.ok → a := fun h => by cases h
  have nope' : ∀ {a : Prop}, Fault.cut = Fault.ok → a := fun h => by cases h
  have hown : OwnHandle x k app c ↔ app = Cid.rp c ∧ khTag x k (Cid.nonce c) app = Cid.tag c := by
    unfold OwnHandle Authentic
    constructor
    · rintro ⟨rfl, h⟩
      exact ⟨rfl, h.symm⟩
    · rintro ⟨rfl, h⟩
      exact ⟨rfl, h.symm⟩
  unfold u2f uTouch
  apply wp_bind
  apply wp_failIf
  · intro h
    refine ⟨_, rfl, .foreign fun o => ?_⟩
    simp [(hown.mp o).1] at h
  intro h1
  have h1' : app = Cid.rp c := by simpa using h1
  apply wp_bind
  apply wp_rdOr
  · intro k' hk'
    rw [hk] at hk'
    cases hk'
    apply wp_bind
    apply wp_failIf
    · intro h
      refine ⟨_, rfl, .foreign fun o => ?_⟩
      simp [(hown.mp o).2] at h
    intro h2
    have own : OwnHandle x k app c := hown.mpr ⟨h1', by simpa using h2⟩
    apply wp_bind
    apply wp_failIf
    · intro h
      exact ⟨_, rfl, .known own h⟩
    intro h3
    apply wp_bind
    apply wp_failIf
    · intro h
      refine ⟨_, rfl, .untouched own ?_⟩
      revert h
      unfold In.touched
      cases i.nfc <;> cases i.touch <;> simp
    intro h4
    apply wp_bind
    apply wp_catch
    have ht : i.touched := by
      revert h4
      unfold In.touched
      cases i.nfc <;> cases i.touch <;> simp
    refine wp_mono (Q := fun ad _ _ => ad.ctr = n + 1) (E := fun _ _ _ => False) (X := fun _ _ => False) ?_ ?_ (fun _ _ _ h => h.elim) (fun _ _ h => h)
    · unfold makeAuthData
      apply wp_bind
      refine wp_increase_ok hn fun f' => ?_
      rw [if_neg (by decide)]
      exact wp_pure rfl
    · intro ad f' r' had
      apply wp_pure
      show Answers x k n i chal app c check (.u2f (.signed ad.ctr (khPri x k (Cid.nonce c)) app chal))
      rw [had]
      exact .signed own (by simpa using h3) ht
  · intro h; rw [hk] at h; cases h
  · exact nope
  · exact nope'

/-- The answers to U2F authentication, whatever the key handle: the device recognises its own handles, for their
application, and no others; it signs with the key of the handle if asked to and touched. -/
theorem C103_answers (s : St) (k : Bytes) (n : UInt32) (hk : rdCert (·.kh) s.flash = some k) (hn : s.flash.counter = some n)
    (i : In) (chal app c : Bytes) (check : Bool) (env : Env) (he : ∀ m, env m = .ok) :
    Answers x k n i chal app c check (step x s (.u2f i (.authenticate chal app c check)) env).2 := by
  unfold step
  refine exec_wp (P := fun p : St × Out => Answers x k n i chal app c check p.2) (A := fun a => a = .ok) he
    (wp_u2fAnswers i chal app c check hk hn) ?_ ?_ ?_ ?_
  · intro a f r h
    exact h
  · rintro b f r ⟨b', hb, h⟩
    cases hb
    exact h
  · rintro u f r ⟨b', hb, h⟩
    cases hb
  · intro f r h
    exact h.elim

/-- What a U2F registration gives. -/
theorem u2f_registered {s : St} {i : In} {chal app : Bytes} {env : Env} {c key : Bytes}
    (h : (step x s (.u2f i (.register chal app)) env).2 = .u2f (.registered c key)) :
    ∃ k, rdCert (·.kh) s.flash = some k ∧ c = makeCid x k i.rndNonce 0 1 app ES256 ∧ key = khPri x k (i.rndNonce ++ [0, 1]) := by
  refine u2f_resp x i (Q := fun a _ _ => a = .registered c key → ∃ k, rdCert (·.kh) s.flash = some k ∧
    c = makeCid x k i.rndNonce 0 1 app ES256 ∧ key = khPri x k (i.rndNonce ++ [0, 1])) ?_ h rfl
  unfold u2f uTouch
  apply wp_bind
  apply wp_failIf
  · intro _; trivial
  intro _
  apply wp_bind
  apply wp_rdOr
  · intro k hk
    apply wp_bind
    apply wp_rdOr
    · intro d _
      apply wp_bind
      apply wp_rdF
      · intro v
        apply wp_pure
        intro e
        cases e
        exact ⟨k, hk, rfl, rfl⟩
      · intro _
        apply wp_pure
        intro e
        cases e
        exact ⟨k, hk, rfl, rfl⟩
      · intro _; trivial
    all_goals (intro _; trivial)
  all_goals (intro _; trivial)

/-- Until a reset, no operation changes the secret that key handles are made with, and the counter stays. -/
theorem u2f_kept (ops : List (Op × Env)) (s : St) (hl : s.flash.lb.isSome = true)
    (hops : ∀ o ∈ ops, o.1.resets = false ∧ (o.1.powers = true → noFail o.2)) :
    rdCert (·.kh) (run x s ops).1.flash = rdCert (·.kh) s.flash ∧
    (s.flash.counter.isSome = true → (run x s ops).1.flash.counter.isSome = true) := by
  induction ops generalizing s with
  | nil => exact ⟨rfl, id⟩
  | cons o ops ih =>
    obtain ⟨op, e⟩ := o
    obtain ⟨h1, h2⟩ := hops (op, e) List.mem_cons_self
    rw [run_cons]
    have hsec := secret_step (x := x) s op e h1 h2 hl
    have hctr := (C60_step (x := x) s op e h1 hl h2).2
    obtain ⟨i1, i2⟩ := ih _ (hsec.lb hl) fun o ho => hops o (List.mem_cons_of_mem _ ho)
    refine ⟨i1.trans hsec.kh, fun h => i2 ?_⟩
    rcases hctr with e | ⟨c, _, e⟩
    · rw [e]; exact h
    · rw [e]; rfl

/-- A U2F registration lasts. Take any registration that succeeded, and any history after it without a reset, with
power cuts anywhere and storage errors (except at boot). Then, when the storage works: the application is told that the key handle is known
if it only asks; with a touch, it gets a signature by the very key that was registered, under a counter one higher than
before; without, it is told to wait for one; and any other application is told that the handle is unknown. -/
theorem C103_lasts (hm : ∀ k m, (x.hmac k m).length = 32) (s : St) (hl : s.flash.lb.isSome = true)
    (hs : s.flash.counter.isSome = true) (i : In) (hi : i.rndNonce.length = 16) (chal app : Bytes) (happ : app.length = 32)
    (env : Env) (c key : Bytes) (h : (step x s (.u2f i (.register chal app)) env).2 = .u2f (.registered c key))
    (after : List (Op × Env)) (hops : ∀ o ∈ after, o.1.resets = false ∧ (o.1.powers = true → noFail o.2))
    (t : St) (ht : t = (run x (step x s (.u2f i (.register chal app)) env).1 after).1)
    (j : In) (chal' : Bytes) (env' : Env) (he : ∀ n, env' n = .ok) :
    c.length = 70 ∧ ∃ n, t.flash.counter = some n ∧
      (step x t (.u2f j (.authenticate chal' app c true)) env').2 = .err swTouch ∧
      (j.touched → (step x t (.u2f j (.authenticate chal' app c false)) env').2 = .u2f (.signed (n + 1) key app chal')) ∧
      (¬ j.touched → (step x t (.u2f j (.authenticate chal' app c false)) env').2 = .err swTouch) ∧
      ∀ app', app' ≠ app → ∀ check, (step x t (.u2f j (.authenticate chal' app' c check)) env').2 = .err swData := by
  obtain ⟨k, h1, rfl, rfl⟩ := u2f_registered h
  obtain ⟨p1, p2, p3, _⟩ := makeCid_parts (x := x) (kh := k) (dc := 0) (cp := 1) (alg := ES256) hm hi happ
  have hn : Cid.nonce (makeCid x k i.rndNonce 0 1 app ES256) = i.rndNonce ++ [0, 1] := by
    have htl : (khTag x k (i.rndNonce ++ [0, 1]) app).length = 16 := by
      unfold khTag
      rw [List.length_take, hm]
      rfl
    exact (cid_parts (a := le32 ES256) (dc := 0) (cp := 1) htl hi happ).2.1
  have own : OwnHandle x k app (makeCid x k i.rndNonce 0 1 app ES256) := ⟨p3, p1⟩
  have hsec := secret_step (x := x) s (.u2f i (.register chal app)) env rfl nofun hl
  have hctr : (step x s (.u2f i (.register chal app)) env).1.flash.counter.isSome = true := by
    rcases (C60_step (x := x) s (.u2f i (.register chal app)) env rfl hl nofun).2 with e | ⟨c, _, e⟩
    · rw [e]; exact hs
    · rw [e]; rfl
  obtain ⟨k1, k2⟩ := u2f_kept (x := x) after _ (hsec.lb hl) hops
  rw [← ht] at k1 k2
  obtain ⟨n, hcn⟩ := Option.isSome_iff_exists.mp (k2 hctr)
  have hk : rdCert (·.kh) t.flash = some k := k1.trans (hsec.kh.trans h1)
  have ans := fun app' check => C103_answers (x := x) t k n hk hcn j chal' app' (makeCid x k i.rndNonce 0 1 app ES256) check env' he
  generalize hcid : makeCid x k i.rndNonce 0 1 app ES256 = cid at *
  refine ⟨p2, n, hcn, ?_, ?_, ?_, ?_⟩
  · have := ans app true
    generalize (step x t (.u2f j (.authenticate chal' app cid true)) env').2 = o at this ⊢
    cases this with
    | foreign h => exact absurd own h
    | known => rfl
    | untouched => rfl
    | signed _ h => cases h
  · intro hj
    have := ans app false
    rw [← hn]
    generalize (step x t (.u2f j (.authenticate chal' app cid false)) env').2 = o at this ⊢
    cases this with
    | foreign h => exact absurd own h
    | known _ h => cases h
    | untouched _ h => exact absurd hj h
    | signed => rfl
  · intro hj
    have := ans app false
    generalize (step x t (.u2f j (.authenticate chal' app cid false)) env').2 = o at this ⊢
    cases this with
    | foreign h => exact absurd own h
    | known => rfl
    | untouched => rfl
    | signed _ _ h => exact absurd h hj
  · intro app' hne check
    have := ans app' check
    have hf : ¬ OwnHandle x k app' cid := fun o => hne (o.1.symm.trans p3)
    generalize (step x t (.u2f j (.authenticate chal' app' cid check)) env').2 = o at this ⊢
    cases this with
    | foreign => rfl
    | known h => exact absurd h hf
    | untouched h => exact absurd h hf
    | signed h => exact absurd h hf

/-- The key of a U2F registration serves CTAP2 as well: an assertion request for the relying party with that hash, which
names the key handle, is answered with an assertion by the registered key. -/
theorem C103_ctap2 (hm : ∀ k m, (x.hmac k m).length = 32) (s : St) (hs : Unused s.flash) (hhe : rdCert (·.he) s.flash ≠ none)
    (hctr : s.flash.counter.isSome = true)
    (before : List (Op × Env)) (hf : Along x Fair s before)
    (i : In) (hi : i.rndNonce.length = 16) (chal app : Bytes) (happ : app.length = 32) (env : Env)
    (hf' : Fair (run x s before).1 (.u2f i (.register chal app), env)) (c key : Bytes)
    (h : (step x (run x s before).1 (.u2f i (.register chal app)) env).2 = .u2f (.registered c key))
    (after : List (Op × Env)) (hf'' : Along x Fair (step x (run x s before).1 (.u2f i (.register chal app)) env).1 after)
    (t : St) (ht : t = (run x (step x (run x s before).1 (.u2f i (.register chal app)) env).1 after).1)
    (j : In) (qa : GaReq) (uv : Bool) (hq : Asks x t j qa c uv) (env' : Env) (he : ∀ n, env' n = .ok) :
    ∃ g n, (step x t (.cbor j (.ga (.ok qa))) env').2 = .resp (.ga g) ∧ g.cid = c ∧ g.key = key ∧ g.alg = ES256 ∧
      g.ad.rp = app ∧ g.cdh = qa.cdh ∧ t.flash.counter = some n ∧ g.ad.ctr = n + 1 := by
  obtain ⟨g, hl⟩ := good_run (K := False) hm before s hs.lb hf False.elim hs.good
  obtain ⟨k, h1, rfl, rfl⟩ := u2f_registered h
  obtain ⟨p1, p2, p3, p4, _, p6⟩ := makeCid_parts (x := x) (kh := k) (dc := 0) (cp := 1) (alg := ES256) hm hi happ
  have hn : Cid.nonce (makeCid x k i.rndNonce 0 1 app ES256) = i.rndNonce ++ [0, 1] := by
    have htl : (khTag x k (i.rndNonce ++ [0, 1]) app).length = 16 := by
      unfold khTag
      rw [List.length_take, hm]
      rfl
    exact (cid_parts (a := le32 ES256) (dc := 0) (cp := 1) htl hi happ).2.1
  have g1 := (good_step (K := False) hm (run x s before).1 (.u2f i (.register chal app)) env hf'.1 (fun h => hf'.2.1 (Or.inl h)) hf'.2.2 hl
    (fun h => hf'.2.1 (Or.inr h)) g False.elim).1
  have hsec := secret_step (x := x) (run x s before).1 (.u2f i (.register chal app)) env hf'.1 (fun h => hf'.2.1 (Or.inl h)) hl
  have hl1 := hsec.lb hl
  have g2 := (good_run (K := False) hm after _ hl1 hf'' False.elim g1).1
  obtain ⟨s1, s2, s3, _⟩ := secrets_run after _ hl1 hf''
  obtain ⟨_, b2, b3, _⟩ := secrets_run before s hs.lb hf
  have hc1 : (step x (run x s before).1 (.u2f i (.register chal app)) env).1.flash.counter.isSome = true := by
    rcases (C60_step (x := x) (run x s before).1 (.u2f i (.register chal app)) env rfl hl nofun).2 with e | ⟨c, _, e⟩
    · rw [e]; exact b3 hctr
    · rw [e]; rfl
  rw [← ht] at g2 s1 s2 s3
  obtain ⟨n, hcn⟩ := Option.isSome_iff_exists.mp (s3 hc1)
  have hkh : rdCert (·.kh) t.flash = some k := s1.trans (hsec.kh.trans h1)
  obtain ⟨g, e1, e2, e3, e4, e5, e6, e7, _⟩ := ga_works he g2 hkh p1 p2 hcn (by rw [s2, hsec.he, b2]; exact hhe) (fun hd => absurd p4 hd) hq
  refine ⟨g, n, e1, e2, by rw [e3, hn], by rw [e4, p6], ?_, e6, hcn, e7⟩
  rw [e5, hq.rp, p3]

end Verif.Ctap
