import Verif.Props.CtapAssert
/-
C61: getAssertion and getNextAssertion enumerate the matching credentials.  C59 for every credential.
-/
namespace Verif.Ctap
open Cmd

variable {x : Ext}

/-- Identifiers of the credentials in the given slots. -/
def cids (recs : List Dc) (l : List Nat) : List Bytes := l.map fun p => (recs[p]?.map (·.cid)).getD []

/-- The assertions in a list of outputs. -/
def assertions (l : List Out) : List GaResp := l.filterMap fun o => match o with
  | .resp (.ga g) => some g
  | _ => none

/-- getNextAssertion or a U2F command. -/
def Op.nextOrU2f : Op → Prop
  | .cbor _ .gna => True
  | .u2f _ _ => True
  | _ => False

/-- The slots that `matching` lists are those of the live credentials of the relying party whose protection
allows their use without being named ... -/
theorem mem_matching {recs : List Dc} {rp : Bytes} {uv : Bool} {p : Nat} :
    p ∈ matching recs rp uv ↔ ∃ d, recs[p]? = some d ∧ d.deleted = false ∧ Cid.rp d.cid = rp ∧
      (Cid.cp d.cid = 2 ∨ Cid.cp d.cid = 3 → uv = true) := by
  unfold matching
  rw [List.mem_filter, List.mem_reverse, List.mem_range]
  constructor
  · rintro ⟨h1, h2⟩
    rw [List.getElem?_eq_getElem h1] at h2 ⊢
    refine ⟨_, rfl, ?_⟩
    simp only [Bool.and_eq_true, Bool.not_eq_true', beq_iff_eq] at h2
    refine ⟨h2.1.1, h2.2.symm, ?_⟩
    rintro (h | h)
    · rcases protect2 h2.1.2 h with h | h
      · exact h
      · cases h
    · exact protect3 h2.1.2 h
  · rintro ⟨d, h1, h2, h3, h4⟩
    have hlt : p < recs.length := by
      rcases Nat.lt_or_ge p recs.length with h | h
      · exact h
      · rw [List.getElem?_eq_none h] at h1
        cases h1
    refine ⟨hlt, ?_⟩
    rw [h1]
    simp only [h2, h3, Bool.not_false, Bool.true_and, beq_self_eq_true, Bool.and_true]
    unfold protectOk
    by_cases h5 : Cid.cp d.cid = 2
    · rw [h5]; simp [h4 (Or.inl h5)]
    · by_cases h6 : Cid.cp d.cid = 3
      · rw [h6]; simp [h4 (Or.inr h6)]
      · simp [h5, h6]

/-- ... each once, the highest slot first. -/
theorem matching_sorted (recs : List Dc) (rp : Bytes) (uv : Bool) : (matching recs rp uv).Pairwise (· > ·) := by
  unfold matching
  apply List.Pairwise.filter
  rw [List.pairwise_reverse]
  exact List.pairwise_lt_range

/-- The state after getAssertion without allow list. -/
structure Listed (s1 : St) (q : GaReq) (uv : Bool) (recs : List Dc) : Prop where
  store : rdRecs s1.flash = some recs
  list : s1.ram.ga.list = matching recs q.rpHash uv
  num : s1.ram.ga.num = (matching recs q.rpHash uv).length
  allow : s1.ram.ga.req.allow = []
  ctr : s1.ram.ga.ctr = 1
  going : s1.ram.going

theorem rdRecs_dc {f f' : Flash} (h : f'.dc = f.dc) : rdRecs f' = rdRecs f := by
  unfold rdRecs
  rw [h]

theorem listed {s : St} {i : In} {q : GaReq} {env : Env} {g : GaResp} (hq : q.allow = [])
    (h : (step x s (.cbor i (.ga (.ok q))) env).2 = .resp (.ga g)) :
    ∃ recs, Listed (step x s (.cbor i (.ga (.ok q))) env).1 q g.ad.uv recs ∧ matching recs q.rpHash g.ad.uv ≠ [] ∧
      [g.cid] = cids recs ((matching recs q.rpHash g.ad.uv).take 1) ∧
      g.count = (if (matching recs q.rpHash g.ad.uv).length > 1 then some (matching recs q.rpHash g.ad.uv).length else none) := by
  obtain ⟨q', g', hq', hg, hb⟩ := ga_resp x i h
  cases hq'
  cases hg
  obtain ⟨d, f1, r1, _, h2, h3, h4, h5, _, _, r', hd, hr'⟩ := hb.done
  obtain ⟨recs, kh, e1, e2, e3, e4, e5, e6, _⟩ := hd.chosen.found (by rw [h4]; exact hq)
  obtain ⟨e6, e7, e8⟩ := e6 h3
  obtain ⟨c, _, _, hf⟩ := hd.ctr
  rw [h4, ← hd.uv] at e6
  refine ⟨recs, ⟨?_, ?_, ?_, ?_, ?_, ?_⟩, ?_, ?_, ?_⟩
  · rw [← e1]
    apply rdRecs_dc
    rw [hf]
  · rw [hr']; exact e6
  · rw [hr']
    show r'.ga.num = _
    rw [e7]
    exact congrArg List.length e6
  · rw [hr']
    obtain ⟨hs, hq1⟩ := hd.ramReq
    show r'.ga.req.allow = []
    rw [hq1, h4]
    exact hq
  · rw [hr']
    show r'.ga.ctr = 1
    rw [hd.ramCtr, h3]
  · rw [hr']; exact Or.inl rfl
  · rw [← e6]; exact e8
  · rw [← e6]
    rw [h3] at e2
    cases hl : r'.ga.list with
    | nil => exact absurd hl e8
    | cons p l =>
      rw [hl] at e2
      show [g.cid] = [((recs[p]?).map (·.cid)).getD []]
      have e2 : recs[p]? = some d := e2
      rw [e2, hd.cid]
      rfl
  · rw [hd.count, h4, hq, h3, e7, e6]
    simp

/-- One getNextAssertion of a sequence. -/
theorem next_step {s1 s : St} {q : GaReq} {uv : Bool} {recs : List Dc} {i : In} {env : Env} (hl : Listed s1 q uv recs)
    (hc : Cont s1 s) {g : GaResp} (h : (step x s (.cbor i .gna) env).2 = .resp (.ga g)) :
    s.ram.ga.ctr < (matching recs q.rpHash uv).length ∧
    cids recs ((matching recs q.rpHash uv).drop s.ram.ga.ctr) =
      g.cid :: cids recs ((matching recs q.rpHash uv).drop (s.ram.ga.ctr + 1)) ∧
    Cont s1 (step x s (.cbor i .gna) env).1 ∧ (step x s (.cbor i .gna) env).1.ram.ga.ctr = s.ram.ga.ctr + 1 ∧
    (step x s (.cbor i .gna) env).1.ram.going ∧ (step x s (.cbor i .gna) env).1.ram.ga.timer = i.tick' ∧
    (step x s (.cbor i .gna) env).1.ram.sm2 = s.ram.sm2 ∧
    rdCert (·.he) (step x s (.cbor i .gna) env).1.flash = rdCert (·.he) s.flash ∧
    (step x s (.cbor i .gna) env).1.flash.counter ≠ none ∧
    (s.ram.ga.req.hs = none → (step x s (.cbor i .gna) env).1.ram.ga.req.hs = none) := by
  obtain ⟨g', d, r', hg, h1, h2, h3, hd, hr⟩ := gna_resp x i h
  cases hg
  have hctr : s.ram.ga.ctr ≠ 0 := by
    have := hc.ctr
    have := hl.ctr
    omega
  have hallow : s.ram.ga.req.allow = [] := by
    obtain ⟨h, hq⟩ := hc.req
    rw [hq]
    exact hl.allow
  obtain ⟨recs', kh, e1, e2, e3, e4, e5, _, e6⟩ := hd.chosen.found hallow
  obtain ⟨e6, e7⟩ := e6 hctr
  have hrecs : recs' = recs := by
    have : rdRecs s.flash = rdRecs s1.flash := rdRecs_dc hc.dc
    rw [e1, hl.store] at this
    cases this
    rfl
  subst hrecs
  have hlist : r'.ga.list = matching recs' q.rpHash uv := e6.trans (hc.list.trans hl.list)
  have hn : s.ram.ga.ctr < (matching recs' q.rpHash uv).length := by
    rw [← hl.num, ← hc.num]
    exact h2
  refine ⟨hn, ?_, hc.trans (gna_cont x i ⟨hl.ctr, fun h => absurd hl.allow h⟩ hc h2 hd hr), ?_, ?_, ?_, ?_, ?_, ?_, ?_⟩
  · rw [List.drop_eq_getElem_cons hn]
    have e2 : recs'[r'.ga.list.getD s.ram.ga.ctr 0]? = some d := e2
    rw [hlist, List.getD_eq_getElem?_getD, List.getElem?_eq_getElem hn] at e2
    have e2 : recs'[(matching recs' q.rpHash uv)[s.ram.ga.ctr]]? = some d := e2
    show ((recs'[(matching recs' q.rpHash uv)[s.ram.ga.ctr]]?).map (·.cid)).getD [] :: _ = _
    rw [e2, hd.cid]
    rfl
  · rw [hr]; exact hd.ramCtr
  · rw [hr]; exact Or.inr rfl
  · rw [hr]; exact hd.ramTimer
  · rw [hr]
    show r'.sm2 = _
    rw [hd.ram]
    rfl
  · obtain ⟨c, _, _, hf⟩ := hd.ctr
    rw [hf]
    unfold rdCert
    cases s.flash.cert <;> rfl
  · obtain ⟨c, hcc, _, hf⟩ := hd.ctr
    rw [hf]
    unfold Flash.counter
    rw [mapped_ctr hcc]
    simp
  · intro hn
    rw [hr]
    exact hd.ramHs hn

/-- What follows a sequence: whatever U2F commands come between, the assertions that getNextAssertion gives
are those for the remaining credentials, in order. -/
theorem next_prefix {s1 s : St} {q : GaReq} {uv : Bool} {recs : List Dc} (hl : Listed s1 q uv recs)
    (hc : s.ram.going → Cont s1 s) (ops : List (Op × Env)) (hops : ∀ o ∈ ops, o.1.nextOrU2f)
    (hu : ∀ u, .ub u ∉ (run x s ops).2) :
    (assertions (run x s ops).2).map (·.cid) <+: cids recs ((matching recs q.rpHash uv).drop s.ram.ga.ctr) := by
  induction ops generalizing s with
  | nil => exact List.nil_prefix
  | cons o ops ih =>
    obtain ⟨op, env⟩ := o
    have ho := hops (op, env) (List.mem_cons_self ..)
    have hu1 : ∀ u, (step x s op env).2 ≠ .ub u := fun u h => hu u (by
      show _ ∈ (step x s op env).2 :: (run x (step x s op env).1 ops).2
      rw [← h]; exact List.mem_cons_self ..)
    have hu2 : ∀ u, .ub u ∉ (run x (step x s op env).1 ops).2 := fun u h => hu u (List.mem_cons_of_mem _ h)
    have hops' : ∀ o ∈ ops, o.1.nextOrU2f := fun o h => hops o (List.mem_cons_of_mem _ h)
    have dead : ∀ s' : St, ¬ s'.ram.going → (∀ u, .ub u ∉ (run x s' ops).2) →
        (assertions (run x s' ops).2).map (·.cid) <+: cids recs ((matching recs q.rpHash uv).drop s.ram.ga.ctr) := by
      intro s' hs' hu'
      have key : ∀ (ops : List (Op × Env)) (s' : St), (∀ o ∈ ops, o.1.nextOrU2f) → ¬ s'.ram.going →
          (∀ u, .ub u ∉ (run x s' ops).2) → assertions (run x s' ops).2 = [] := by
        intro ops
        induction ops with
        | nil => intros; rfl
        | cons o ops ih2 =>
          obtain ⟨op, env⟩ := o
          intro s' hops hs' hu'
          have hu1 : ∀ u, (step x s' op env).2 ≠ .ub u := fun u h => hu' u (by
            show _ ∈ (step x s' op env).2 :: (run x (step x s' op env).1 ops).2
            rw [← h]; exact List.mem_cons_self ..)
          have ho := hops (op, env) (List.mem_cons_self ..)
          have hno : ∀ a, (step x s' op env).2 ≠ .resp a := by
            intro a ha
            obtain ⟨i, q, rfl⟩ := resp_cbor x ha
            cases q with
            | gna =>
              obtain ⟨_, _, _, _, h1, _⟩ := gna_resp x i ha
              exact hs' h1
            | _ => exact ho
          have hng : ¬ (step x s' op env).1.ram.going := by
            intro hg
            cases op with
            | cbor i q => exact (step_going x i hu1 hg).1.elim fun a ha => hno a ha
            | u2f i q => exact hs' (step_aside x (fun _ _ h => by cases h) hg).1
            | _ => exact ho
          have := ih2 (step x s' op env).1 (fun o h => hops o (List.mem_cons_of_mem _ h)) hng
            (fun u h => hu' u (List.mem_cons_of_mem _ h))
          show assertions ((step x s' op env).2 :: (run x (step x s' op env).1 ops).2) = []
          unfold assertions at this ⊢
          rw [List.filterMap_cons_none]
          · exact this
          · cases ho : (step x s' op env).2 with
            | resp a => exact absurd ho (hno a)
            | _ => rfl
      rw [key ops s' hops' hs' hu']
      exact List.nil_prefix
    show (assertions ((step x s op env).2 :: (run x (step x s op env).1 ops).2)).map (·.cid) <+: _
    cases op with
    | cbor i q' =>
      cases q' with
      | gna =>
        cases hout : (step x s (.cbor i .gna) env).2 with
        | resp a =>
          obtain ⟨g, d, r', rfl, h1, _⟩ := gna_resp x i hout
          obtain ⟨h2, h3, h4, h5, h6, _⟩ := next_step hl (hc h1) hout
          have := ih (s := (step x s (.cbor i .gna) env).1) (fun _ => h4) hops' hu2
          rw [h5] at this
          rw [h3]
          show g.cid :: _ <+: _
          exact List.cons_prefix_cons.mpr ⟨rfl, this⟩
        | ub u => exact absurd hout (hu1 u)
        | u2f a => obtain ⟨_, _, h⟩ := resp_u2f x hout; cases h
        | done | err | cut =>
          refine dead _ ?_ hu2
          intro hg
          obtain ⟨⟨a, ha⟩, _⟩ := step_going x i hu1 hg
          rw [ha] at hout
          cases hout
      | _ => exact absurd ho id
    | u2f i q' =>
      have hnone : ∀ a, (step x s (.u2f i q') env).2 ≠ .resp a := by
        intro a ha
        obtain ⟨_, _, h⟩ := resp_cbor x ha
        cases h
      have hskip : assertions ((step x s (.u2f i q') env).2 :: (run x (step x s (.u2f i q') env).1 ops).2) =
          assertions (run x (step x s (.u2f i q') env).1 ops).2 := by
        unfold assertions
        rw [List.filterMap_cons_none]
        cases ho : (step x s (.u2f i q') env).2 with
        | resp a => exact absurd ho (hnone a)
        | _ => rfl
      rw [hskip]
      by_cases hg : (step x s (.u2f i q') env).1.ram.going
      · have ha := step_aside x (fun _ _ h => by cases h) hg
        have := ih (s := (step x s (.u2f i q') env).1) (fun _ => (hc ha.1).trans ha.2.1) hops' hu2
        rw [ha.2.2.1] at this
        exact this
      · exact dead _ hg hu2
    | _ => exact absurd ho id

/-- getAssertion without allow list answers with the credential in the highest matching slot and their number
if there are several; the getNextAssertion commands that follow answer with the others, each once, in the
order of the slots, whatever fails or is cut off on the way and whatever U2F commands come between. -/
theorem C61_order (s : St) (i : In) (q : GaReq) (env : Env) (g : GaResp) (hq : q.allow = [])
    (h : (step x s (.cbor i (.ga (.ok q))) env).2 = .resp (.ga g)) (ops : List (Op × Env))
    (hops : ∀ o ∈ ops, o.1.nextOrU2f) (hu : ∀ u, .ub u ∉ (run x (step x s (.cbor i (.ga (.ok q))) env).1 ops).2) :
    ∃ recs, rdRecs (step x s (.cbor i (.ga (.ok q))) env).1.flash = some recs ∧
      g.cid :: (assertions (run x (step x s (.cbor i (.ga (.ok q))) env).1 ops).2).map (·.cid) <+:
        cids recs (matching recs q.rpHash g.ad.uv) ∧
      g.count = (if (matching recs q.rpHash g.ad.uv).length > 1 then some (matching recs q.rpHash g.ad.uv).length else none) := by
  obtain ⟨recs, hl, hne, hhead, hcnt⟩ := listed hq h
  refine ⟨recs, hl.store, ?_, hcnt⟩
  have := next_prefix hl (fun _ => Cont.refl _) ops hops hu
  rw [hl.ctr] at this
  cases hm : matching recs q.rpHash g.ad.uv with
  | nil => exact absurd hm hne
  | cons p l =>
    rw [hm] at this hhead
    have hhead : [g.cid] = [((recs[p]?).map (·.cid)).getD []] := hhead
    injection hhead with hhead
    show g.cid :: _ <+: ((recs[p]?).map (·.cid)).getD [] :: cids recs l
    exact List.cons_prefix_cons.mpr ⟨hhead, this⟩

/-- Each getNextAssertion comes within 30 seconds of the answer before. -/
def Timely (t : UInt32) : List In → Prop
  | [] => True
  | i :: l => i.tick - t ≤ 30000 ∧ Timely i.tick' l

/-- The credential can be used: it was made by this device and its algorithm is supported; a device with
a large-blob key for it has the secret that this is derived from. -/
structure Usable (x : Ext) (s : St) (d : Dc) : Prop where
  kh : ∃ kh, rdCert (·.kh) s.flash = some kh ∧ Authentic x kh d.cid
  alg : algOk s.ram.sm2 (Cid.alg d.cid) = true
  he : d.lbk = true → rdCert (·.he) s.flash ≠ none

/-- No fault. -/
def allOk : Fault → Prop := (· = .ok)

theorem wp_ok_rdOr {α : Type} {look : Flash → Option α} {e : Err} {a : α} {Q : α → Flash → Ram → Prop} {f : Flash} {r : Ram}
    {E : Err → Flash → Ram → Prop} {X : Flash → Ram → Prop}
    (h : look f = some a) (hQ : Q a f r) : wp allOk (Cmd.rdOr look e : M α) Q E X f r := by
  apply wp_rdOr
  · intro b hb
    rw [h] at hb
    cases hb
    exact hQ
  · intro hn; rw [h] at hn; cases hn
  · intro hn; cases hn
  · intro hn; cases hn

theorem ok_authData (i : In) {rp : Bytes} {flags : Byte} {alg : UInt32} {dc cp : Byte} {f : Flash} {r : Ram} {c : UInt32}
    (hfl : flags &&& 0x40 = 0) (hc : f.counter = some c) :
    wp allOk (makeAuthData x i rp flags alg dc cp) (fun ad f' r' => ad = ⟨rp, flags, c + 1, none⟩ ∧ r' = r ∧
        f' = { f with cert := f.cert.map fun e => { e with ctr := some (c + 1) } })
      (fun _ _ _ => False) (fun _ _ => False) f r := by
  unfold makeAuthData increaseCounter
  apply wp_bind
  apply wp_bind
  apply wp_ok_rdOr hc
  apply wp_bind
  apply wp_wrOr
  · intro f' hf
    apply wp_pure
    rw [if_neg (by simp [hfl])]
    exact wp_pure ⟨rfl, rfl, updCert_map hf⟩
  · intro hn
    exfalso
    unfold Flash.counter at hc
    unfold updCert at hn
    cases hce : f.cert with
    | none => rw [hce] at hc; cases hc
    | some e => rw [hce] at hn; cases hn
  · intro hn; cases hn
  · intro hn; cases hn

theorem ok_verifyKh {cid kh : Bytes} {f : Flash} {r : Ram} (h1 : rdCert (·.kh) f = some kh) (h2 : Authentic x kh cid) :
    wp allOk (verifyKh x cid) (fun k f' r' => k = some (khPri x kh (Cid.nonce cid)) ∧ f' = f ∧ r' = r)
      (fun _ _ _ => False) (fun _ _ => False) f r := by
  unfold verifyKh
  apply wp_bind
  apply wp_ok_rdOr h1
  rw [if_pos]
  · exact wp_pure ⟨rfl, rfl, rfl⟩
  · rw [← h2]
    exact beq_self_eq_true _

/-- U2F signs with every credential of the device, whatever its protection, resident or not, deleted or not:
without faults, a touch is enough.  So C59 fails for every credential. -/
theorem C59_any_credential (s : St) (i : In) (env : Env) (he : ∀ n, env n = .ok) (kh cid chal : Bytes) (c : UInt32)
    (hk : rdCert (·.kh) s.flash = some kh) (hc : s.flash.counter = some c) (ha : Authentic x kh cid)
    (ht : i.nfc = true ∨ i.touch = true) :
    (step x s (.u2f i (.authenticate chal (Cid.rp cid) cid false)) env).2 =
      .u2f (.signed (c + 1) (khPri x kh (Cid.nonce cid)) (Cid.rp cid) chal) := by
  unfold step
  refine exec_wp (P := fun p : St × Out => p.2 = .u2f (.signed (c + 1) (khPri x kh (Cid.nonce cid)) (Cid.rp cid) chal))
    (A := allOk) he (Q := fun a _ _ => a = .signed (c + 1) (khPri x kh (Cid.nonce cid)) (Cid.rp cid) chal)
    (E := fun _ _ _ => False) (X := fun _ _ => False) ?_ ?_ ?_ ?_ ?_
  · unfold u2f uTouch
    apply wp_bind
    apply wp_failIf
    · intro h; simp at h
    intro _
    apply wp_bind
    apply wp_ok_rdOr hk
    apply wp_bind
    apply wp_failIf
    · intro h
      rw [← ha] at h
      simp at h
    intro _
    apply wp_bind
    apply wp_failIf
    · intro h; cases h
    intro _
    apply wp_bind
    apply wp_failIf
    · intro h
      rcases ht with h' | h' <;> rw [h'] at h <;> simp at h
    intro _
    apply wp_bind
    apply wp_catch
    refine wp_mono (ok_authData i (by decide) hc) ?_ (fun _ _ _ h => h.elim) (fun _ _ h => h)
    rintro ad f r ⟨rfl, _, _⟩
    exact wp_pure rfl
  · intro a f r h; rw [h]
  · intro c f r h; exact h.elim
  · intro c f r h; exact h.elim
  · intro f r h; exact h.elim

/-- Without faults and in time, getNextAssertion answers while credentials are left. -/
theorem next_answers {s1 s : St} {q : GaReq} {uv : Bool} {recs : List Dc} {i : In} {env : Env} (hl : Listed s1 q uv recs)
    (hc : Cont s1 s) (hg : s.ram.going) (hn : s.ram.ga.ctr < (matching recs q.rpHash uv).length) (he : ∀ n, env n = .ok)
    (ht : i.tick - s.ram.ga.timer ≤ 30000) (hhs : s.ram.ga.req.hs = none) (huv : s1.ram.ga.uv = uv)
    (hctr : s.flash.counter ≠ none)
    (hus : ∀ p ∈ matching recs q.rpHash uv, ∀ d, recs[p]? = some d → Usable x s d) :
    ∃ g, (step x s (.cbor i .gna) env).2 = .resp (.ga g) := by
  have hne : s.ram.ga.ctr ≠ 0 := by
    have := hc.ctr
    have := hl.ctr
    omega
  have hallow : s.ram.ga.req.allow = [] := by
    obtain ⟨h, hq⟩ := hc.req
    rw [hq]
    exact hl.allow
  have hlist : s.ram.ga.list = matching recs q.rpHash uv := hc.list.trans hl.list
  have hrecs : rdRecs s.flash = some recs := (rdRecs_dc hc.dc).trans hl.store
  obtain ⟨c, hcc⟩ : ∃ c, s.flash.counter = some c := by
    cases h : s.flash.counter with
    | none => exact absurd h hctr
    | some c => exact ⟨c, rfl⟩
  have hp : (matching recs q.rpHash uv)[s.ram.ga.ctr] ∈ matching recs q.rpHash uv := List.getElem_mem hn
  have hmem := mem_matching.mp hp
  obtain ⟨d, hd, _⟩ := hmem
  obtain ⟨⟨kh, hk, ha⟩, halg, hhe⟩ := hus _ hp d hd
  have hprot : protectOk d.cid false uv = true := by
    unfold matching at hp
    rw [List.mem_filter] at hp
    have := hp.2
    unfold matching at hd
    rw [hd] at this
    simp only [Bool.and_eq_true] at this
    exact this.1.2
  have hget : (matching recs q.rpHash uv).getD s.ram.ga.ctr 0 = (matching recs q.rpHash uv)[s.ram.ga.ctr] := by
    rw [List.getD_eq_getElem?_getD, List.getElem?_eq_getElem hn]
    rfl
  have hwp : wp allOk (getNextAssertion x i) (fun a _ _ => ∃ g, a = .ga g) (fun _ _ _ => False) (fun _ _ => False)
      s.flash (aged i s.ram) := by
    unfold getNextAssertion
    apply wp_bind
    apply wp_get
    apply wp_bind
    apply wp_failIf
    · intro h
      exfalso
      rcases hg with hg | hg
      · rw [show (aged i s.ram).lastCmd = s.ram.lastCmd from rfl, hg] at h; simp at h
      · rw [show (aged i s.ram).lastCmd = s.ram.lastCmd from rfl, hg] at h; simp at h
    intro _
    apply wp_bind
    apply wp_failIf
    · intro h
      exfalso
      have h : s.ram.ga.ctr ≥ s.ram.ga.num := of_decide_eq_true h
      rw [hc.num, hl.num] at h
      omega
    intro _
    apply wp_bind
    apply wp_failIf
    · intro h
      have h : i.tick - s.ram.ga.timer > 30000 := of_decide_eq_true h
      exact UInt32.not_le.mpr h ht
    intro _
    unfold gaFinish gaSelect
    apply wp_bind
    apply wp_bind
    apply wp_get
    wzeta
    rw [if_neg (by rw [show (aged i s.ram).ga.req.allow = [] from hallow]; simp)]
    rw [if_neg (by rw [show (aged i s.ram).ga.ctr = s.ram.ga.ctr from rfl]; simp [hne])]
    show wp allOk (do
        let r ← Cmd.get
        let d ← rdRec rdRecs (r.ga.list.getD r.ga.ctr 0)
        match ← verifyKh x d.cid with
        | none => fail Code.unhandled
        | some key => return (d, key) : M (Dc × Bytes)) _ _ _ _ _
    apply wp_bind
    apply wp_get
    apply wp_bind
    have hidx : (aged i s.ram).ga.list.getD (aged i s.ram).ga.ctr 0 = (matching recs q.rpHash uv)[s.ram.ga.ctr] := by
      show s.ram.ga.list.getD s.ram.ga.ctr 0 = _
      rw [hlist, hget]
    rw [hidx]
    apply wp_rdRec
    · intro recs' d' h1 h2
      rw [hrecs] at h1
      cases h1
      rw [hd] at h2
      cases h2
      apply wp_bind
      refine wp_mono (ok_verifyKh hk ha) ?_ (fun _ _ _ h => h) (fun _ _ h => h)
      rintro k f r ⟨rfl, rfl, rfl⟩
      apply wp_pure
      apply wp_bind
      apply wp_get
      show wp allOk _ _ _ _ _ _
      wzeta
      rw [if_neg (by rw [show (aged i s.ram).ga.ctr = s.ram.ga.ctr from rfl]; simp [hne])]
      show wp allOk (gaRest x i (aged i s.ram).ga.req d (khPri x kh (Cid.nonce d.cid)) ((aged i s.ram).ga.ctr == 0)) _ _ _ _ _
      unfold gaRest
      apply wp_bind
      apply wp_get
      have e1 : (aged i s.ram).ga.uv = uv := hc.uv.trans huv
      have e2 : (aged i s.ram).ga.req.allow = [] := hallow
      have e3 : (aged i s.ram).ga.req.hs = none := hhs
      have e4 : (aged i s.ram).sm2 = s.ram.sm2 := rfl
      apply wp_bind
      apply wp_failIf
      · intro h
        rw [e1, e2] at h
        rw [show (decide (([] : List Bytes).length > 0)) = false from rfl, hprot] at h
        cases h
      intro _
      show wp allOk _ _ _ _ _ _
      rw [e3]
      wzeta
      apply wp_bind
      apply wp_pure
      apply wp_bind
      refine wp_mono (ok_authData i (gaFlags _ _ _).1 hcc) ?_ (fun _ _ _ h => h) (fun _ _ h => h)
      rintro ad f' r' ⟨rfl, rfl, rfl⟩
      rw [e4, halg]
      simp only [Bool.not_true, Bool.false_eq_true, if_false]
      cases hlbk : d.lbk with
      | false =>
        simp only [Bool.false_eq_true, if_false]
        apply wp_bind
        apply wp_pure
        apply wp_bind
        apply wp_mod
        exact wp_pure ⟨_, rfl⟩
      | true =>
        simp only [if_true]
        obtain ⟨he, hhe⟩ : ∃ he, rdCert (·.he) s.flash = some he := by
          cases h : rdCert (·.he) s.flash with
          | none => exact absurd h (hhe hlbk)
          | some he => exact ⟨he, rfl⟩
        unfold largeBlobKey
        apply wp_bind
        apply wp_bind
        apply wp_bind
        refine wp_ok_rdOr (a := he) ?_ ?_
        · rw [← hhe]
          unfold rdCert
          cases s.flash.cert <;> rfl
        apply wp_pure
        apply wp_pure
        apply wp_bind
        apply wp_mod
        exact wp_pure ⟨_, rfl⟩
    · intro recs' h1 h2
      rw [hrecs] at h1
      cases h1
      rw [hd] at h2
      cases h2
    · intro h; rw [hrecs] at h; cases h
    · intro h; cases h
    · intro h; cases h
  have hpr : wp allOk (process x i .gna) (fun a _ _ => ∃ g, a = .ga g) (fun _ _ _ => False) (fun _ _ => False) s.flash s.ram := by
    unfold process
    apply wp_bind
    apply wp_mod
    apply wp_bind
    apply wp_catch
    refine wp_mono hwp ?_ (fun _ _ _ h => h.elim) (fun _ _ h => h)
    intro a f r h
    apply wp_bind
    apply wp_mod
    exact wp_pure h
  unfold step
  refine exec_wp (P := fun p : St × Out => ∃ g, p.2 = .resp (.ga g)) (A := allOk) he hpr ?_ ?_ ?_ ?_
  · rintro a f r ⟨g, rfl⟩; exact ⟨g, rfl⟩
  · intro c f r h; exact h.elim
  · intro c f r h; exact h.elim
  · intro f r h; exact h.elim

/-- When all have been returned, getNextAssertion is refused. -/
theorem next_exhausted {s : St} {i : In} {env : Env} (hn : s.ram.ga.num ≤ s.ram.ga.ctr) :
    (step x s (.cbor i .gna) env).2 = .err Code.notAllowed := by
  have hpr : wp (fun _ => True) (process x i .gna) (fun _ _ _ => False) (fun e _ _ => e = .code Code.notAllowed) (fun _ _ => False) s.flash s.ram := by
    unfold process
    apply wp_bind
    apply wp_mod
    apply wp_bind
    apply wp_catch
    have hfin : ∀ f r, wp (fun _ => True) (do
        Cmd.mod fun r => { r with lastCmd := 0xFF }
        fail Code.notAllowed : M Resp) (fun _ _ _ => False) (fun e _ _ => e = .code Code.notAllowed) (fun _ _ => False) f r := by
      intro f r
      apply wp_bind
      apply wp_mod
      exact wp_fail rfl
    show wp _ (getNextAssertion x i) _ _ _ s.flash (aged i s.ram)
    unfold getNextAssertion
    apply wp_bind
    apply wp_get
    apply wp_bind
    apply wp_failIf
    · intro _
      exact hfin _ _
    intro _
    apply wp_bind
    apply wp_failIf
    · intro _
      exact hfin _ _
    intro h
    exfalso
    have h : ¬ s.ram.ga.ctr ≥ s.ram.ga.num := of_decide_eq_false h
    exact h hn
  unfold step
  refine exec_wp (P := fun p : St × Out => p.2 = .err Code.notAllowed) (A := fun _ => True) (fun _ => trivial) hpr ?_ ?_ ?_ ?_
  · intro a f r h; exact h.elim
  · intro c f r h; cases h; rfl
  · intro c f r h; cases h
  · intro f r h; exact h.elim

/-- The getNextAssertion commands of `l`, without faults. -/
def nexts (l : List In) : List (Op × Env) := l.map fun i => (.cbor i .gna, fun _ => .ok)

theorem next_all {s1 s : St} {q : GaReq} {uv : Bool} {recs : List Dc} (hl : Listed s1 q uv recs) (huv : s1.ram.ga.uv = uv)
    (hc : Cont s1 s) (hg : s.ram.going) (hhs : s.ram.ga.req.hs = none) (hctr : s.flash.counter ≠ none)
    (hus : ∀ p ∈ matching recs q.rpHash uv, ∀ d, recs[p]? = some d → Usable x s d)
    (l : List In) (ht : Timely s.ram.ga.timer l) (hlen : s.ram.ga.ctr + l.length = (matching recs q.rpHash uv).length) :
    (assertions (run x s (nexts l)).2).map (·.cid) = cids recs ((matching recs q.rpHash uv).drop s.ram.ga.ctr) ∧
    (run x s (nexts l)).2.length = (assertions (run x s (nexts l)).2).length ∧
    ∀ i env, (step x (run x s (nexts l)).1 (.cbor i .gna) env).2 = .err Code.notAllowed := by
  induction l generalizing s with
  | nil =>
    simp only [List.length_nil, Nat.add_zero] at hlen
    refine ⟨?_, rfl, fun i env => ?_⟩
    · rw [hlen, List.drop_length]
      rfl
    · apply next_exhausted
      show s.ram.ga.num ≤ s.ram.ga.ctr
      rw [hc.num, hl.num, hlen]
      exact Nat.le_refl _
  | cons i l ih =>
    simp only [List.length_cons] at hlen
    obtain ⟨g, ho⟩ := next_answers (x := x) (i := i) (env := fun _ => .ok) hl hc hg (by omega) (fun _ => rfl) ht.1 hhs huv hctr hus
    obtain ⟨h1, h2, h3, h4, h5, h6, h7, h8, h9, h10⟩ := next_step hl hc ho
    have := ih (s := (step x s (.cbor i .gna) fun _ => .ok).1) h3 h5 (h10 hhs) h9
      (by
        intro p hp d hd
        obtain ⟨⟨kh, hk, ha⟩, halg, hhe⟩ := hus p hp d hd
        refine ⟨⟨kh, ?_, ha⟩, ?_, ?_⟩
        · rw [h3.kh, ← hc.kh]; exact hk
        · rw [h7]; exact halg
        · rw [h8]; exact hhe)
      (by rw [h6]; exact ht.2) (by rw [h4]; omega)
    obtain ⟨a1, a2, a3⟩ := this
    rw [h4] at a1
    have hrun : run x s (nexts (i :: l)) = ((run x (step x s (.cbor i .gna) fun _ => .ok).1 (nexts l)).1,
        .resp (.ga g) :: (run x (step x s (.cbor i .gna) fun _ => .ok).1 (nexts l)).2) := by
      show ((run x (step x s (.cbor i .gna) fun _ => .ok).1 (nexts l)).1,
        (step x s (.cbor i .gna) fun _ => .ok).2 :: (run x (step x s (.cbor i .gna) fun _ => .ok).1 (nexts l)).2) = _
      rw [ho]
    rw [hrun]
    refine ⟨?_, ?_, a3⟩
    · rw [h2, ← a1]
      rfl
    · show (run x _ (nexts l)).2.length + 1 = (assertions (run x _ (nexts l)).2).length + 1
      rw [a2]

/-- All matching credentials: when nothing fails, the commands come in time and the matching credentials are
usable, getAssertion without allow list and as many getNextAssertion commands as it announces return every
matching credential exactly once, and one more getNextAssertion is refused. -/
theorem C61_all (s : St) (i : In) (q : GaReq) (env : Env) (g : GaResp) (hq : q.allow = []) (hh : q.hs = none)
    (h : (step x s (.cbor i (.ga (.ok q))) env).2 = .resp (.ga g)) (recs : List Dc)
    (hrecs : rdRecs (step x s (.cbor i (.ga (.ok q))) env).1.flash = some recs)
    (hus : ∀ p ∈ matching recs q.rpHash g.ad.uv, ∀ d, recs[p]? = some d → Usable x (step x s (.cbor i (.ga (.ok q))) env).1 d)
    (l : List In) (ht : Timely i.tick' l) (hlen : l.length + 1 = (matching recs q.rpHash g.ad.uv).length) :
    g.cid :: (assertions (run x (step x s (.cbor i (.ga (.ok q))) env).1 (nexts l)).2).map (·.cid) =
      cids recs (matching recs q.rpHash g.ad.uv) ∧
    ∀ j env', (step x (run x (step x s (.cbor i (.ga (.ok q))) env).1 (nexts l)).1 (.cbor j .gna) env').2 = .err Code.notAllowed := by
  obtain ⟨recs', hl, hne, hhead, hcnt⟩ := listed hq h
  have : recs' = recs := by
    have := hl.store
    rw [hrecs] at this
    cases this
    rfl
  subst this
  obtain ⟨q', g', hq', hg, hb⟩ := ga_resp x i h
  cases hq'
  cases hg
  obtain ⟨d, f1, r1, _, h2, h3, h4, h5, _, _, r', hd, hr'⟩ := hb.done
  have := next_all hl (by rw [hr']; exact hd.ramUv.trans hd.uv.symm) (Cont.refl _) hl.going
    (by rw [hr']; exact hd.ramHs (by rw [h4]; exact hh))
    (by
      obtain ⟨c, hcc, _, hf⟩ := hd.ctr
      rw [hf]
      unfold Flash.counter
      rw [mapped_ctr hcc]
      simp) hus l
    (by
      rw [hr']
      show Timely r'.ga.timer l
      rw [hd.ramTimer]
      exact ht)
    (by rw [hl.ctr]; omega)
  rw [hl.ctr] at this
  refine ⟨?_, this.2.2⟩
  rw [this.1]
  cases hm : matching recs' q.rpHash g.ad.uv with
  | nil => exact absurd hm hne
  | cons p l =>
    rw [hm] at hhead
    have hhead : [g.cid] = [((recs'[p]?).map (·.cid)).getD []] := hhead
    injection hhead with hhead
    rw [hhead]
    rfl

section
open Toy
/-- Three credentials for `rpA` and one for `rpB`. -/
def four : St := (run ext produced (histN [(20000, 1, mc rpA user1 .yes 1 none), (20000, 2, mc rpA user2 .yes 1 none),
  (20000, 3, mc rpB user1 .yes 1 none), (20000, 4, mc rpA ⟨[3], [], []⟩ .yes 1 none)])).1

/-- The hypotheses of `C61_all` are met, and the list is not trivial. -/
example : (step ext four (.cbor (env 30000) (ga rpA [] .absent none)) fine).2 matches .resp (.ga ⟨_, _, _, _, _, _, _, _, _, some 3, _⟩) := by
  decide +kernel
example : matching ((rdRecs four.flash).getD []) rpA false = [3, 1, 0] := by decide +kernel
example : (run ext four [(.cbor (env 30000) (ga rpA [] .absent none), fine), (.cbor (env 40000) .gna, fine),
    (.u2f (env 45000) (.register cdh rpB), fine), (.cbor (env 50000) .gna, fine), (.cbor (env 50000) .gna, fine)]).2.map
      (fun o => match o with | .resp (.ga g) => (g.userId.getD []).headD 0 | .err c => c | _ => 99) = [3, 2, 99, 1, Code.notAllowed] := by
  decide +kernel
example : Timely (env 30000).tick' [env 40000, env 60000] := by unfold Timely; refine ⟨by decide, by decide, trivial⟩
end

end Verif.Ctap
