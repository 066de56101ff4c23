import Verif.Props.Oath
/-
OATH applet and touch slots, continued: C18 (CALCULATE ALL), C19 to C23.
-/
set_option linter.unusedSimpArgs false
namespace Verif.Oath
open Verif.Spec.Oath Cmd

variable {A : Fault → Prop} {x : Ext} {i : In} {f f' : Flash} {r r' : Ram}

/-! ### C18, CALCULATE ALL -/

theorem flatMap_all (t : Bool) (c : Bytes) (L : List Rec) :
    L.flatMap (allEntry x t c) = (L.filter fun q => decide (q.name ≠ [])).flatMap (allResp x t c) := by
  induction L with
  | nil => rfl
  | cons q L ih =>
    by_cases h : q.name = []
    · simp [List.flatMap_cons, List.filter_cons, h, allEntry, ih]
    · simp [List.flatMap_cons, List.filter_cons, h, allEntry, ih, allResp]

theorem mem_span {recs : List Rec} {a b : Nat} {q : Rec} (h : q ∈ (recs.drop a).take (b - a)) :
    ∃ k, a ≤ k ∧ k < b ∧ recs[k]? = some q := by
  obtain ⟨k, hk⟩ := List.mem_iff_getElem?.mp h
  have hl := lt_of_getElem? hk
  rw [List.length_take] at hl
  rw [List.getElem?_take, if_pos (by omega), List.getElem?_drop] at hk
  exact ⟨a + k, by omega, by omega, hk⟩

/-- C18. A page of CALCULATE ALL is the entries of some stored credentials, and contains the code of an
increasing-only credential only if the challenge is at least the stored one; it is stored then. -/
theorem C18_calculate_all (hx : GoodHmac x) {s : St} (hv : Valid s.flash) {i : In}
    (hi : (i.c.ins = 0xA4 ∧ i.c.p1 = 0) ∨ (i.c.ins = 0xA5 ∧ (s.ram.rem = .calcFull ∨ s.ram.rem = .calcTrunc)))
    {env : Env} (he : env.all cutsOnly) {d : Bytes} {sw : SW} (hsw : sw = SW.ok ∨ sw = SW.more)
    (hout : (step x s (.apdu i) env).2 = .reply (.resp d sw)) :
    ∃ (c : Bytes) (t : Bool) (l : List Rec), ((∃ rest, i.c.data = chalTlv c ++ rest) ∨ c = s.ram.cBuf.take s.ram.cLen) ∧
      d = l.flatMap (allResp x t c) ∧
      ∀ q ∈ l, store s.flash q.name = some q ∧
        (Totp q → IncOnly q → ¬ NeedsTouch q → c.length = 8 ∧ num q.chal ≤ num c ∧
          store (step x s (.apdu i) env).1.flash q.name = some { q with chal := c }) := by
  have hv' := valid_step (x := x) hx hv (.apdu i) env
  obtain ⟨oc, f', r', h, hs⟩ := step_apdu hx s i he
  have hfl : (step x s (.apdu i) env).1.flash = f' := by rw [hs]; cases oc <;> rfl
  rw [hfl] at hv' ⊢
  rw [hs] at hout
  have hth : ∀ t : Rec, Totp t → Hotp t → False := by
    intro q h1 h2; unfold Totp at h1; unfold Hotp at h2; rw [h1] at h2; exact absurd h2 (by decide)
  have key : ∀ r0 : Ram, (r0.cBuf = s.ram.cBuf ∧ r0.cLen = s.ram.cLen) → AllEff cutsOnly x i s.flash r0 oc f' r' →
      ∃ (c : Bytes) (t : Bool) (l : List Rec), ((∃ rest, i.c.data = chalTlv c ++ rest) ∨ c = s.ram.cBuf.take s.ram.cLen) ∧
      d = l.flatMap (allResp x t c) ∧
      ∀ q ∈ l, store s.flash q.name = some q ∧
        (Totp q → IncOnly q → ¬ NeedsTouch q → c.length = 8 ∧ num q.chal ≤ num c ∧
          store f' q.name = some { q with chal := c }) := by
    rintro r0 ⟨hb1, hb2⟩ h
    cases h with
    | bad sw' hsw' => 
      exfalso
      simp only [Reply.sw, Out.reply.injEq, Reply.resp.injEq] at hout
      rcases hsw with h | h
      · exact hsw'.1 (hout.2.trans h)
      · exact hsw'.2 (hout.2.trans h)
    | cut => simp at hout
    | page o ho c t hc j hj hn f'' hf r'' hr hidx hrem hcb sw' hsw' =>
      simp only [Out.reply.injEq, Reply.resp.injEq] at hout
      obtain ⟨hd, _⟩ := hout
      refine ⟨c, t == .calcTrunc, ((o.recs.drop r0.idx).take (j - r0.idx)).filter
        (fun q => decide (q.name ≠ [])), ?_, ?_, ?_⟩
      · unfold AllChal at hc
        split at hc
        · exact .inl hc.2.2.1
        · exact .inr (by rw [hc.1, hb1, hb2])
      · rw [← hd]; exact flatMap_all _ _ _
      · intro q hq
        rw [List.mem_filter] at hq
        have hne : q.name ≠ [] := by simpa using hq.2
        obtain ⟨k, hk1, hk2, hk⟩ := mem_span hq.1
        obtain ⟨_, hwf, hu⟩ := hv o ho
        refine ⟨store_of_get ho hu hk hne, ?_⟩
        intro ht hinc htouch
        obtain ⟨o', hf', _, _, hlen, hrel⟩ := hf
        obtain ⟨q', hq'⟩ := get_of_length' hlen hk
        have hp := hrel k q q' hk hq'
        unfold PageRel at hp
        rw [if_pos ⟨hk1, hk2⟩] at hp
        rcases hp with ⟨hna, _⟩ | ⟨_, hl, hm, (hqq | ⟨hfail, _⟩)⟩
        · exact absurd ⟨hne, fun hh => hth q ht hh, htouch, hinc⟩ hna
        · refine ⟨hl, le_of_memcmp (hwf q (List.mem_of_getElem? hk)).chal hl hm, ?_⟩
          have ho' : f'.oath = some o' := by rw [hf']
          have := store_of_get ho' (hv' o' ho').2.2 hq' (by rw [hqq]; exact hne)
          rw [hqq] at this
          exact this
        · exact absurd hfail cuts_no_fail
  have hno : ∀ sw', sw' ≠ SW.ok → sw' ≠ SW.more → (Out.reply (.sw sw')) ≠ .reply (.resp d sw) := by
    intro sw' h1 h2 h
    simp only [Reply.sw, Out.reply.injEq, Reply.resp.injEq] at h
    rcases hsw with h3 | h3
    · exact h1 (h.2.trans h3)
    · exact h2 (h.2.trans h3)
  cases h with
  | gate => exact absurd hout (hno _ (by decide) (by decide))
  | all hv hi hp h => exact key { s.ram with idx := 0 } ⟨rfl, rfl⟩ h
  | moreAll hv hi hr h => exact key _ ⟨rfl, rfl⟩ h
  | other sw' hsw' hi' h4 h5 =>
    rcases hi with ⟨h1, h2⟩ | ⟨h1, h2⟩
    · exact absurd h2 (h4 h1).1
    · rw [h5 h1] at h2; rcases h2 with h2 | h2 <;> cases h2
  | put _ hi' => rw [hi'] at hi; simp at hi
  | delete _ hi' => rw [hi'] at hi; simp at hi
  | setCode _ hi' => rw [hi'] at hi; simp at hi
  | rename _ hi' => rw [hi'] at hi; simp at hi
  | list _ hi' => rw [hi'] at hi; simp at hi
  | calculate _ hi' => rw [hi'] at hi; simp at hi
  | validate hi' => rw [hi'] at hi; simp at hi
  | select hi' hp => rw [hi', hp] at hi; simp at hi
  | moreList _ hi' hr => rw [hi', hr] at hi; simp at hi
  | setDefault _ hi' => rw [hi'] at hi; simp at hi

/-- Non-vacuity: CALCULATE ALL with challenge 10, truncated. -/
example : (step exX exS (.apdu (exCmd 0xA4 0 1 [0x74, 8, 0, 0, 0, 0, 0, 0, 0, 10])) allOk).2 =
    .reply (.resp [0x71, 1, 0x68, 0x77, 1, 6, 0x71, 1, 0x74, 0x76, 5, 8, 0, 0, 0, 10, 0x71, 1, 0x6D, 0x77, 1, 6]
      SW.ok) := by decide +kernel

/-! ### C19: the access code -/

/-- C19. Without validation every command except SELECT and VALIDATE, and CALCULATE ALL which shares its
instruction byte with SELECT, is refused with 6982 and changes nothing. -/
theorem C19_gate (hx : GoodHmac x) {s : St} (hv : s.ram.validated = false) {i : In}
    (hi : (i.c.ins ≠ 0xA4 ∧ i.c.ins ≠ 0xA3) ∨ (i.c.ins = 0xA4 ∧ i.c.p1 = 0)) (env : Env) :
    step x s (.apdu i) env = (s, .reply (.sw SW.security)) := by
  obtain ⟨oc, f', r', h, hs⟩ := step_apdu hx s i (any_all env)
  rw [hs]
  have : oc = .done (.sw SW.security) ∧ f' = s.flash ∧ r' = s.ram := by
    cases h with
    | gate => exact ⟨rfl, rfl, rfl⟩
    | other sw hsw hi' h4 h5 h55 hg =>
      rcases hi with ⟨h1, h2⟩ | ⟨h1, h2⟩
      · exact absurd (hg hv) h1
      · exact absurd h2 (h4 h1).1
    | validate hi' => rw [hi'] at hi; simp at hi
    | select hi' hp => rw [hi', hp] at hi; simp at hi
    | _ h => rw [hv] at h; cases h
  obtain ⟨rfl, rfl, rfl⟩ := this
  rfl

/-- Non-vacuity: DELETE on the locked device. -/
example : exL.ram.validated = false ∧ store exL.flash [0x74] = some exT ∧
    (step exX exL (.apdu (exCmd 2 0 0 [0x71, 1, 0x74])) allOk) = (exL, .reply (.sw SW.security)) :=
  ⟨rfl, by decide, by decide +kernel⟩

/-- C19. From a locked device every operation leads to a locked device with the same access code, except
VALIDATE with HMAC(access code, current challenge), and a factory reset. -/
theorem C19_locked_step (hx : GoodHmac x) {s : St} (hl : Locked s) (op : Op) (hr : ∀ rnd, op ≠ .install true rnd)
    {env : Env} (he : env.all cutsOnly) (hu : ¬ Unlocks x s op) :
    Locked (step x s op env).1 ∧
      (step x s op env).1.flash.oath.bind (·.key) = s.flash.oath.bind (·.key) := by
  have h := step_eff hx s op he
  generalize step x s op env = st at h
  obtain ⟨s', out⟩ := st
  simp only at h ⊢
  obtain ⟨hval, o, k, ho, hk, hne⟩ := hl
  have same : ∀ {f' : Flash} {r' : Ram}, r'.validated = false → f'.oath = s.flash.oath →
      Locked ⟨f', r'⟩ ∧ f'.oath.bind (·.key) = s.flash.oath.bind (·.key) := by
    intro f' r' h1 h2
    exact ⟨⟨h1, o, k, h2.trans ho, hk, hne⟩, by rw [h2]⟩
  have proc : ∀ {i : In} {oc : Outcome Reply} {f' : Flash} {r' : Ram}, op = .apdu i →
      ProcEff cutsOnly x i s.flash s.ram oc f' r' → r'.validated = false ∧ f'.oath = s.flash.oath := by
    intro i oc f' r' hop h
    have hno : ∀ {P : Prop}, s.ram.validated = true → P := fun h => by rw [hval] at h; cases h
    cases h with
    | gate => exact ⟨hval, rfl⟩
    | other => exact ⟨hval, rfl⟩
    | validate hi h =>
      cases h with
      | bad => exact ⟨hval, rfl⟩
      | cut => exact ⟨hval, rfl⟩
      | wrong => exact ⟨rfl, rfl⟩
      | right o' ho' k' resp c hk' hne' hq hm =>
        exact absurd ⟨i, o', k', c, hop, hi, ho', hk', hne', hm ▸ hq⟩ hu
    | select hi hp h =>
      cases h with
      | bad => exact ⟨hval, rfl⟩
      | cut => exact ⟨hval, rfl⟩
      | opened o' hd ho' hk' hh =>
        rw [ho] at ho'; cases ho'
        rw [hk] at hk'; cases hk'
        exact absurd rfl hne
      | locked => exact ⟨hval, rfl⟩
    | put hv => exact hno hv
    | delete hv => exact hno hv
    | setCode hv => exact hno hv
    | rename hv => exact hno hv
    | list hv => exact hno hv
    | calculate hv => exact hno hv
    | all hv => exact hno hv
    | moreList hv => exact hno hv
    | moreAll hv => exact hno hv
    | setDefault hv => exact hno hv
  have inst : ∀ {reset : Bool} {rnd : Bytes} {oc : Outcome Reply} {f' : Flash}, op = .install reset rnd →
      InstEff cutsOnly reset s.flash oc f' → f'.oath = s.flash.oath := by
    intro reset rnd oc f' hop h
    cases h with
    | keep => rfl
    | io _ h => exact absurd h cuts_no_fail
    | cut => rfl
    | wiped h =>
      rcases h with h | h | h
      · rw [h] at hop; exact absurd hop (hr rnd)
      · rw [ho] at h; cases h
      · exact absurd h cuts_no_fail
  have passInst : ∀ {reset : Bool} {oc : Outcome Reply} {f' : Flash} {r' : Ram},
      PassInstEff reset s.flash s.ram oc f' r' → r'.validated = false ∧ f'.oath = s.flash.oath := by
    intro reset oc f' r' h
    cases h with
    | mk hf hr =>
      obtain ⟨s0, s1, rfl, _⟩ := hr
      exact ⟨hval, hf⟩
  have slot : ∀ (p : Byte) (t : Slot), (putSlot p t s.ram).validated = false := by
    intro p t; unfold putSlot; split <;> exact hval
  cases h with
  | apdu i a f' r' h => obtain ⟨h1, h2⟩ := proc rfl h; exact same h1 h2
  | apduCut i f' r' h => obtain ⟨h1, h2⟩ := proc rfl h; exact same rfl h2
  | touch long b f' r' h =>
    cases h with
    | off => exact same hval rfl
    | static => exact same hval rfl
    | fails => exact same hval rfl
    | hotp n e o' j q c h ho' hj hn ht hc _ hf =>
      rcases hf with rfl | ⟨hf, _⟩
      · rw [ho] at ho'; cases ho'
        exact ⟨⟨hval, _, k, rfl, hk, hne⟩, by rw [ho]; rfl⟩
      · exact absurd hf cuts_no_fail
  | touchCut => exact same rfl rfl
  | passRead => exact same hval rfl
  | passWrite c a f' r' h =>
    cases h with
    | bad => exact same hval rfl
    | io h t => exact same (slot _ t) rfl
    | done t => exact same (slot _ t) rfl
  | passWriteCut c f' r' h => cases h with | cut => exact same rfl rfl
  | install reset rnd a f' h => exact same rfl (inst rfl h)
  | installCut reset rnd f' h => exact same rfl (inst rfl h)
  | passInstall reset a f' r' h => obtain ⟨h1, h2⟩ := passInst h; exact same h1 h2
  | passInstallCut reset f' r' h => obtain ⟨h1, h2⟩ := passInst h; exact same rfl h2
  | powerOff => exact same rfl rfl
  | boot => exact same rfl rfl

/-- C19 over histories. A locked device that is not factory reset gets unlocked only by a VALIDATE with
HMAC(access code, current challenge): if it is unlocked at the end of a history, that command was sent. -/
theorem C19_only_validate_unlocks (hx : GoodHmac x) {s : St} (hl : Locked s) (h : List (Op × Env))
    (hr : ∀ p ∈ h, (∀ rnd, p.1 ≠ .install true rnd) ∧ p.2.all cutsOnly)
    (hn : ¬ Locked (run x s h).1) :
    ∃ h1 op env h2, h = h1 ++ (op, env) :: h2 ∧ Locked (run x s h1).1 ∧ Unlocks x (run x s h1).1 op := by
  induction h generalizing s with
  | nil => exact absurd hl hn
  | cons p h ih =>
    obtain ⟨op, env⟩ := p
    obtain ⟨h1, h2⟩ := hr (op, env) (by simp)
    by_cases hu : Unlocks x s op
    · exact ⟨[], op, env, h, rfl, hl, hu⟩
    · obtain ⟨a, op', env', b, heq, hlk, hun⟩ := ih (C19_locked_step hx hl op h1 h2 hu).1
        (fun p hp => hr p (by simp [hp])) hn
      exact ⟨(op, env) :: a, op', env', b, by rw [heq]; rfl, hlk, hun⟩

/-- Non-vacuity: SELECT and VALIDATE with the right answer unlock the locked device. -/
example : Locked exL ∧ ¬ Locked (run exX exL [(.apdu (exCmd 0xA4 4 0 []), allOk),
    (.apdu (exCmd 0xA3 0 0 ([0x75, 20] ++ exX.hmac 1 [1, 2, 3] [1, 2, 3, 4, 5, 6, 7, 8] ++ [0x74, 2, 1, 1])), allOk)]).1 := by
  refine ⟨⟨rfl, _, _, rfl, rfl, by decide⟩, fun h => ?_⟩
  have : (run exX exL [(.apdu (exCmd 0xA4 4 0 []), allOk),
    (.apdu (exCmd 0xA3 0 0 ([0x75, 20] ++ exX.hmac 1 [1, 2, 3] [1, 2, 3, 4, 5, 6, 7, 8] ++ [0x74, 2, 1, 1])),
      allOk)]).1.ram.validated = true := by decide +kernel
  rw [h.1] at this
  cases this

/-- The session ends at power-off only: SELECT does not revoke a validation (a remark; the property does
not demand it). -/
theorem C19_select_keeps_session :
    (run exX exL [(.apdu (exCmd 0xA4 4 0 []), allOk),
      (.apdu (exCmd 0xA3 0 0 ([0x75, 20] ++ exX.hmac 1 [1, 2, 3] [1, 2, 3, 4, 5, 6, 7, 8] ++ [0x74, 2, 1, 1])), allOk),
      (.apdu (exCmd 0xA4 4 0 []), allOk), (.apdu (exCmd 2 0 0 [0x71, 1, 0x74]), allOk)]).2.getLast? =
    some (.reply (.sw SW.ok)) := by decide +kernel

/-- C19. SELECT of a locked device announces the challenge that VALIDATE will be checked against. -/
theorem C19_select_announces_challenge (hx : GoodHmac x) {s : St} {o : OathFile} {k hd : Bytes}
    (ho : s.flash.oath = some o) (hk : o.key = some k) (hne : k ≠ []) (hh : o.handle = some hd) {i : In}
    (hi : i.c.ins = 0xA4) (hp : i.c.p1 = 4 ∧ i.c.p2 = 0) :
    let res := step x s (.apdu i) (fun _ => .ok)
    res.2 = .reply (.resp ([0x79, 3, 6, 0, 0, 0x71, 8] ++ hd ++ [0x74, 8] ++ i.rnd ++ [0x7B, 1, 1]) SW.ok) ∧
    res.1.ram.authChal = i.rnd ∧ res.1.ram.validated = s.ram.validated := by
  obtain ⟨oc, f', r', h, hs⟩ := step_apdu hx s i ok_env
  simp only [hs]
  replace h : SelEff noFault i s.flash s.ram oc f' r' := by
    cases h with
    | select _ _ h => exact h
    | gate hv h => rw [hi, hp.1] at h; simp at h
    | other sw hsw hi' h4 => exact absurd hp.1 (h4 hi).2
    | all _ _ h => rw [hp.1] at h; cases h
    | validate h => rw [hi] at h; cases h
    | put _ h => rw [hi] at h; cases h
    | delete _ h => rw [hi] at h; cases h
    | setCode _ h => rw [hi] at h; cases h
    | rename _ h => rw [hi] at h; cases h
    | list _ h => rw [hi] at h; cases h
    | calculate _ h => rw [hi] at h; cases h
    | moreList _ h => rw [hi] at h; cases h
    | moreAll _ h => rw [hi] at h; cases h
    | setDefault _ h => rw [hi] at h; cases h
  cases h with
  | bad d sw h hw =>
    rcases hw with h | h | h | h
    · exact absurd hp.2 h
    · exact absurd h no_fail
    · rw [ho] at h; simp [hh] at h
    · rw [ho] at h; simp [hk] at h
  | cut h => exact absurd h no_cut
  | opened o' hd' ho' hk' hh' =>
    rw [ho] at ho'; cases ho'
    rw [hk] at hk'; cases hk'
    exact absurd rfl hne
  | locked o' hd' k' ho' hk' hne' hh' =>
    rw [ho] at ho'; cases ho'
    rw [hh] at hh'; cases hh'
    exact ⟨rfl, rfl, rfl⟩

/-- Non-vacuity. -/
example : ∃ o, exL.flash.oath = some o ∧ o.key = some [1, 2, 3] ∧ o.handle = some [9, 9, 9, 9, 9, 9, 9, 9] :=
  ⟨_, rfl, rfl, rfl⟩

/-! ### C20: LIST -/

theorem flatMap_list (L : List Rec) :
    L.flatMap listEntry = (L.filter fun q => decide (q.name ≠ [])).flatMap listing := by
  induction L with
  | nil => rfl
  | cons q L ih =>
    by_cases h : q.name = []
    · simp [List.flatMap_cons, List.filter_cons, h, listEntry, ih]
    · simp [List.flatMap_cons, List.filter_cons, h, listEntry, ih, listing]

theorem listSpan_append {recs : List Rec} {a j b : Nat} (h1 : a ≤ j) (h2 : j ≤ b) :
    listSpan recs a j ++ listSpan recs j b = listSpan recs a b := by
  unfold listSpan
  rw [← List.flatMap_append]
  congr 1
  have : b - a = (j - a) + (b - j) := by omega
  rw [this, List.take_add, List.drop_drop]
  congr 3
  omega

theorem listSpan_all (recs : List Rec) : listSpan recs 0 recs.length = recs.flatMap listEntry := by
  unfold listSpan; simp

/-- The command as the host sends it in `collect`. -/
def hostCmd (ins : Byte) (le : Nat) : In :=
  { c := ⟨0, ins, 0, 0, [], le⟩, nfc := false, touch := false, rnd := [] }

theorem collect_succ (le : Nat → Nat) (k : Nat) (s : St) (ins : Byte) : collect x le (k + 1) s ins =
    match step x s (.apdu (hostCmd ins (le 0))) (fun _ => .ok) with
    | (s', .reply (.resp d sw)) =>
      if sw = SW.ok then some d
      else if sw = SW.more then (collect x (fun n => le (n + 1)) k s' 0xA5).map (d ++ ·)
      else none
    | _ => none := rfl

theorem collect_from (hx : GoodHmac x) {o : OathFile} (hw : ∀ q ∈ o.recs, q.name.length ≤ 64) (k : Nat) :
    ∀ (s : St) (ins : Byte) (a : Nat) (le : Nat → Nat), s.flash.oath = some o → s.ram.validated = true →
      (∀ n, 67 ≤ le n) → (ins = 0xA1 ∧ a = 0 ∨ ins = 0xA5 ∧ s.ram.rem = .list ∧ s.ram.idx = a) →
      a ≤ o.recs.length → o.recs.length < a + k →
      collect x le k s ins = some (listSpan o.recs a o.recs.length) := by
  induction k with
  | zero => intro s ins a le _ _ _ _ h1 h2; omega
  | succ k ih =>
    intro s ins a le ho hval hle hins h1 h2
    rw [collect_succ]
    obtain ⟨oc, f', r', h, hs⟩ := step_apdu hx s (hostCmd ins (le 0)) ok_env
    rw [hs]
    replace h : ∃ r0 : Ram, r0.idx = a ∧ r0.validated = true ∧ ListEff noFault (hostCmd ins (le 0)) s.flash r0 oc f' r' := by
      rcases hins with ⟨rfl, rfl⟩ | ⟨rfl, hr, rfl⟩
      · exact ⟨{ s.ram with idx := 0 }, rfl, hval, inv_list h hval rfl⟩
      · exact ⟨_, rfl, hval, inv_more h hval rfl hr⟩
    obtain ⟨r0, ha, hv0, h⟩ := h
    cases h with
    | bad sw h hp => exact absurd hp (by simp [hostCmd])
    | io h => exact absurd h (no_io ho)
    | cut h => exact absurd h no_cut
    | more o' h12 ho' j hj q hq hlt =>
      rw [ho] at ho'; cases ho'
      have hjl := lt_of_getElem? hq
      have hqn := hw q (List.mem_of_getElem? hq)
      have hpos : a < j := by
        rcases Nat.lt_or_ge a j with h | h
        · exact h
        · exfalso
          have : j = r0.idx := by omega
          rw [this] at hlt
          have hz : (listSpan o.recs r0.idx r0.idx).length = 0 := by simp [listSpan]
          have := hle 0
          simp only [hostCmd] at hlt
          omega
      simp only
      rw [if_neg (by decide), if_pos trivial]
      rw [ih ⟨s.flash, { r0 with rem := .list, idx := j }⟩ 0xA5 j (fun n => le (n + 1)) ho hv0 (fun n => hle (n + 1)) (.inr ⟨rfl, rfl, rfl⟩)
        (by omega) (by omega)]
      simp only [Option.map_some]
      rw [ha, listSpan_append (by omega) (by omega)]
    | last o' h12 ho' j hj hn hn' =>
      rw [ho] at ho'; cases ho'
      simp only
      rw [if_pos trivial, ha, hn' (by omega)]

theorem uniq_tail {q : Rec} {recs : List Rec} (h : Uniq (q :: recs)) : Uniq recs := by
  intro j k a b ha hb hn hab
  have := h (j + 1) (k + 1) a b (by simpa using ha) (by simpa using hb) hn hab
  omega

theorem names_nodup {recs : List Rec} (h : Uniq recs) :
    ((recs.filter fun q => decide (q.name ≠ [])).map (·.name)).Nodup := by
  induction recs with
  | nil => simp
  | cons q recs ih =>
    by_cases hq : q.name = []
    · simpa [List.filter_cons, hq] using ih (uniq_tail h)
    · rw [List.filter_cons_of_pos (by simpa using hq), List.map_cons, List.nodup_cons]
      refine ⟨?_, ih (uniq_tail h)⟩
      intro hm
      obtain ⟨t, ht, htn⟩ := List.mem_map.mp hm
      obtain ⟨k, hk⟩ := List.mem_iff_getElem?.mp (List.mem_filter.mp ht).1
      have := h 0 (k + 1) q t (by simp) (by simpa using hk) hq htn.symm
      omega

/-- C20. LIST and its SEND REMAINING pages together are the entries of all stored credentials, each exactly
once, whatever the page sizes (each large enough for one entry). -/
theorem C20_list_complete (hx : GoodHmac x) {s : St} (hv : Valid s.flash) (hval : s.ram.validated = true)
    (hfile : s.flash.oath ≠ none) (le : Nat → Nat) (hle : ∀ n, 67 ≤ le n) {k : Nat} (hk : 100 < k) :
    ∃ l : List Rec, (l.map (·.name)).Nodup ∧ (∀ q, q ∈ l ↔ store s.flash q.name = some q) ∧
      collect x le k s 0xA1 = some (l.flatMap listing) := by
  obtain ⟨o, ho⟩ := Option.ne_none_iff_exists'.mp hfile
  obtain ⟨hl, hw, hu⟩ := hv o ho
  refine ⟨_, names_nodup hu, ?_, ?_⟩
  · intro q
    rw [List.mem_filter, store_some_iff ho hu, ← List.mem_iff_getElem?]
    simp only [decide_eq_true_eq]
    constructor
    · rintro ⟨h1, h2⟩; exact ⟨h2, trivial, h1⟩
    · rintro ⟨h1, _, h2⟩; exact ⟨h2, h1⟩
  · rw [collect_from hx (fun q hq => (hw q hq).name) k s 0xA1 0 le ho hval hle (.inl ⟨rfl, rfl⟩)
      (by omega) (by omega), listSpan_all, flatMap_list]

/-- Non-vacuity: three credentials; with pages of 67 bytes and with pages of 3 entries' size. -/
example : collect exX (fun _ => 67) 101 exS 0xA1 = some [0x72, 2, 0x11, 0x68, 0x72, 2, 0x21, 0x74, 0x72, 2, 0x11, 0x6D] ∧
    Valid exS.flash ∧ exS.ram.validated = true ∧ exS.flash.oath ≠ none :=
  ⟨by decide +kernel, exS_valid, rfl, by decide⟩

/-- C20. What LIST returns does not depend on secrets, counters or properties: two devices whose slots
agree on name and algorithm give the same bytes. -/
theorem C20_list_leaks_no_key (hx : GoodHmac x) {s t : St} (hv : Valid s.flash) (hv' : Valid t.flash)
    (h1 : s.ram.validated = true) (h2 : t.ram.validated = true) {o p : OathFile} (ho : s.flash.oath = some o)
    (hp : t.flash.oath = some p)
    (heq : o.recs.map (fun q => (q.name, q.alg)) = p.recs.map (fun q => (q.name, q.alg)))
    (le : Nat → Nat) (hle : ∀ n, 67 ≤ le n) {k : Nat} (hk : 100 < k) :
    collect x le k s 0xA1 = collect x le k t 0xA1 := by
  obtain ⟨hl, hw, _⟩ := hv o ho
  obtain ⟨hl', hw', _⟩ := hv' p hp
  rw [collect_from hx (fun q hq => (hw q hq).name) k s 0xA1 0 le ho h1 hle (.inl ⟨rfl, rfl⟩) (by omega) (by omega),
    collect_from hx (fun q hq => (hw' q hq).name) k t 0xA1 0 le hp h2 hle (.inl ⟨rfl, rfl⟩) (by omega) (by omega),
    listSpan_all, listSpan_all]
  have : ∀ L : List Rec, L.flatMap listEntry = (L.map fun q => (q.name, q.alg)).flatMap
      (fun p => if p.1 = [] then [] else [0x72, UInt8.ofNat (p.1.length + 1), p.2] ++ p.1) := by
    intro L; rw [List.flatMap_map]; rfl
  rw [this, this, heq]

/-- Non-vacuity: a device with another secret and another counter. -/
example : Valid (⟨some ⟨[{ exH with secret := [8], chal := [0, 0, 0, 0, 0, 0, 1, 0] }], some [], none⟩, none⟩ : Flash) ∧
    [exH].map (fun q => (q.name, q.alg)) =
      [{ exH with secret := [8], chal := [0, 0, 0, 0, 0, 0, 1, 0] }].map (fun q => (q.name, q.alg)) := by
  refine ⟨?_, rfl⟩
  intro o ho
  cases ho
  refine ⟨by decide, ?_, ?_⟩
  · intro r hr
    simp only [List.mem_cons, List.not_mem_nil, or_false] at hr
    subst hr
    exact ⟨by decide, by decide, by decide, by decide, by decide⟩
  · intro j k r s hj hk _ _
    have h1 := (List.getElem?_eq_some_iff.mp hj).1
    have h2 := (List.getElem?_eq_some_iff.mp hk).1
    simp at h1 h2
    omega

/-! ### C21: DELETE and the touch slots -/

/-- C21, partial. After a successful DELETE no touch slot uses the deleted record, in RAM and on flash, if
not both slots used it. Missing: both slots set to the same credential (refuted below). -/
theorem C21_delete_clears_slot_partial (hx : GoodHmac x) {s : St} (hv : Valid s.flash)
    (hval : s.ram.validated = true) {i : In} (hi : i.c.ins = 0x02) {n : Bytes} (hq : NameReq i.c.data n)
    {o : OathFile} (ho : s.flash.oath = some o) {j : Nat} {q : Rec} (hj : o.recs[j]? = some q)
    (hn : q.name = n) (hsync : s.flash.pass = some (s.ram.slot0, s.ram.slot1))
    (hone : ¬ (SlotUses s.ram.slot0 (j * recSize) ∧ SlotUses s.ram.slot1 (j * recSize))) (env : Env)
    (hout : (step x s (.apdu i) env).2 = .reply (.sw SW.ok)) :
    let s' := (step x s (.apdu i) env).1
    ¬ SlotUses s'.ram.slot0 (j * recSize) ∧ ¬ SlotUses s'.ram.slot1 (j * recSize) ∧
      s'.flash.pass = some (s'.ram.slot0, s'.ram.slot1) := by
  obtain ⟨oc, f', r', h, hs⟩ := step_apdu hx s i (any_all env)
  rw [hs] at hout ⊢
  replace h := inv_delete h hval hi
  have off_not : ∀ off, ¬ SlotUses .off off := by rintro off ⟨_, _, h⟩; cases h
  cases h with
  | bad sw h => exact absurd hout (reply_ne h)
  | io => exact absurd hout io_ne
  | cut => cases hout
  | missing => exact absurd hout (reply_ne (by decide))
  | done o' n' j' q' h12 ho' hq' hj' hn' r'' w hp =>
    rw [ho] at ho'; cases ho'
    cases nameReq_unique hq hq'
    have hjj : j = j' := (hv o ho).2.2 j j' q q' hj hj' (hn ▸ ne_nil_of_valid hq.1) (hn.trans hn'.symm)
    subst hjj
    simp only
    cases hp with
    | none h0 h1 => exact ⟨h0, h1, by simpa [passFlash] using hsync⟩
    | first h0 =>
      exact ⟨off_not _, fun h1 => hone ⟨h0, h1⟩, rfl⟩
    | second h0 h1 => exact ⟨h0, off_not _, rfl⟩

/-- Non-vacuity: DELETE of `h`, which the short touch uses. -/
example : (step exX exS (.apdu (exCmd 2 0 0 [0x71, 1, 0x68])) allOk).2 = .reply (.sw SW.ok) ∧
    exS.flash.pass = some (exS.ram.slot0, exS.ram.slot1) ∧ SlotUses exS.ram.slot0 0 ∧ ¬ SlotUses exS.ram.slot1 0 :=
  ⟨by decide +kernel, by decide, ⟨_, _, rfl⟩, by rintro ⟨_, _, h⟩; cases h⟩

/-- C21 refuted as stated: when both slots type codes of the same credential, DELETE clears only the first.
The long touch then types codes of whatever credential is stored in the freed record next. -/
theorem C21_refuted_two_slots :
    let s : St := ⟨{ exFlash with pass := some (.oath 0 [0x68] 0, .oath 0 [0x68] 0) },
      { exRam with slot0 := .oath 0 [0x68] 0, slot1 := .oath 0 [0x68] 0 }⟩
    let r := run exX s [(.apdu (exCmd 2 0 0 [0x71, 1, 0x68]), allOk),
      (.apdu (exCmd 1 0 0 [0x71, 1, 0x7A, 0x73, 4, 0x11, 4, 1, 2]), allOk), (.touch true, allOk)]
    r.2 = [.reply (.sw SW.ok), .reply (.sw SW.ok), .typed (some [0x30, 0x30, 0x30, 0x31])] ∧
    SlotUses r.1.ram.slot1 0 ∧ (store r.1.flash [0x7A]).map (·.chal) = some [0, 0, 0, 0, 0, 0, 0, 1] :=
  ⟨by decide +kernel, ⟨[0x68], 0, by decide +kernel⟩, by decide +kernel⟩

/-! ### C22: the typed code -/

/-- C22. What a touch types from a slot set to an OATH credential is exactly the configured number of
decimal digits, with the value of the truncated HMAC of the next counter modulo 10^digits, followed by
Enter if the slot says so. -/
theorem C22_typed_code (hx : GoodHmac x) {s : St} (hv : Valid s.flash) {long : Bool} {off : Nat} {m : Bytes}
    {e : Byte} (hslot : (if long then s.ram.slot1 else s.ram.slot0) = .oath off m e) (env : Env) {b : Bytes}
    (hout : (step x s (.touch long) env).2 = .typed (some b)) :
    ∃ q c ds, store s.flash q.name = some q ∧ Hotp q ∧ num c = num q.chal + 1 ∧
      b = ds ++ (if e = 0 then [] else [0x0D]) ∧ ds.length = q.digits.toNat ∧
      4 ≤ ds.length ∧ ds.length ≤ 8 ∧ (∀ d ∈ ds, 0x30 ≤ d ∧ d ≤ 0x39) ∧
      decimal ds = dynTrunc (mac x q c) % 10 ^ ds.length := by
  have h := step_eff hx s (.touch long) (any_all env)
  generalize step x s (.touch long) env = st at *
  obtain ⟨s', out⟩ := st
  simp only at hout h
  subst hout
  cases h with
  | touch _ _ f' r' h =>
    cases h with
    | off h => rw [hslot] at h; cases h
    | static pw e h => rw [hslot] at h; cases h
    | hotp m' e' o j q c h ho hj hn ht hc =>
      rw [hslot] at h
      simp only [Slot.oath.injEq] at h
      obtain ⟨_, _, rfl⟩ := h
      obtain ⟨_, hw, hu⟩ := hv o ho
      have hd := (hw q (List.mem_of_getElem? hj)).digits
      refine ⟨q, c, _, store_of_get ho hu hj hn, ht, (increaseCounter_some hc).2, rfl, ascii_length _ _, ?_, ?_,
        ascii_digit _ _, ?_⟩
      · rw [ascii_length]; exact UInt8.le_iff_toNat_le.mp hd.1
      · rw [ascii_length]; exact UInt8.le_iff_toNat_le.mp hd.2
      · rw [ascii_length]; exact ascii_decimal _ _

/-- Non-vacuity: the short touch types `000006` and Enter. -/
example : (step exX exS (.touch false) allOk).2 = .typed (some [0x30, 0x30, 0x30, 0x30, 0x30, 0x36, 0x0D]) ∧
    exS.ram.slot0 = .oath 0 [0x68] 1 := ⟨by decide +kernel, rfl⟩

/-! ### C23: static passwords -/

/-- C23. The answer of the configuration read does not depend on static passwords. -/
theorem C23_passwords_not_read_back (hx : GoodHmac x) {s t : St} (h0 : SamePublic s.ram.slot0 t.ram.slot0)
    (h1 : SamePublic s.ram.slot1 t.ram.slot1) (env env' : Env) :
    (step x s .passRead env).2 = (step x t .passRead env').2 := by
  have dump : ∀ a b, SamePublic a b → dumpSlot a = dumpSlot b := by
    intro a b h
    cases a <;> cases b <;> simp_all [SamePublic, dumpSlot]
  have hs := step_eff hx s .passRead (any_all env)
  have ht := step_eff hx t .passRead (any_all env')
  generalize step x s .passRead env = st at *
  generalize step x t .passRead env' = tt at *
  obtain ⟨s', o⟩ := st
  obtain ⟨t', p⟩ := tt
  simp only at hs ht ⊢
  cases hs
  cases ht
  simp only [dump _ _ h0, dump _ _ h1]

/-- Non-vacuity: two different passwords. -/
example : SamePublic exS.ram.slot1 (.static [0x71] 0) ∧ exS.ram.slot1 ≠ .static [0x71] 0 := ⟨rfl, by decide⟩

end Verif.Oath
