import Verif.Props.PgpMore
/-
The OpenPGP applet does what it is asked to when everything is in order (C35, C39).
-/
set_option linter.unusedSimpArgs false
namespace Verif.Pgp
open Cmd Verif.Spec.Pgp Verif.KeyFile

variable {A : Fault → Prop} {x : Ext} {i : In} {f f' : Flash} {r r' : Ram} {o : Outcome Reply}

/-- The command is executed. -/
theorem process_disp {Q E : Reply → Flash → Ram → Prop} {X : Flash → Ram → Prop} (hc : i.c.cla = 0)
    (hi : i.c.ins ≠ 0xCC) (ha : Active f) (h : ∀ r0, Trk r r0 → wp noFault (dispatch x i 0) Q E X f r0) :
    wp noFault (process x i) Q E X f r := by
  obtain ⟨d, hd, ht⟩ := ha
  unfold process
  rw [if_neg (by simp [hc])]
  apply wp_bind; apply wp_get
  cases htr : track i.c r with
  | none =>
    unfold track at htr
    simp only at htr
    repeat' split at htr
    all_goals first | (cases htr; done) | simp_all
  | some r0 =>
    simp only []
    apply wp_bind; apply wp_mod
    apply wp_bind
    unfold getAttr
    apply wp_rdOr
    · intro t h0
      simp only [hd, ht, Option.bind_some, Option.some.injEq] at h0
      subst h0
      exact h r0 (track_trk htr)
    · intro h0; simp [hd, ht] at h0
    · intro h0; cases h0
    · intro h0; cases h0

/-- Run a command without faults. -/
theorem step_known {s : St} {env : Env} (henv : env.all noFault) (hr : s.ram = some r)
    {P : Reply → Flash → Ram → Prop}
    (h : wp noFault (process x i) P P (fun _ _ => False) s.flash r) :
    ∃ a f' r', P a f' r' ∧ step x s (.apdu i) env = (⟨f', some r'⟩, .reply a) := by
  obtain ⟨f, ram⟩ := s
  subst hr
  obtain ⟨o, f', r', h1, h2⟩ := exec_of_wp (P := fun o f' r' => match o with | .done a => P a f' r' | .cut => False)
    henv h
  cases o with
  | cut => exact h1.elim
  | done a => exact ⟨a, f', r', h1, h2⟩

/-- VERIFY with the right PW1 answers 9000, resets the retry counter and allows what the reference (81 or 82) stands for. -/
theorem C35_verify_ok (hx : x.Ok) (s : St) (r : Ram) (i : In) (env : Env) (henv : env.all noFault)
    (hr : s.ram = some r) (ha : Active s.flash) (hc : i.c.cla = 0) (hi : i.c.ins = 0x20) (hp1 : i.c.p1 = 0)
    (hp2 : i.c.p2 = 0x81 ∨ i.c.p2 = 0x82) (q : Pin.PinFile) (n d : UInt8) (hq : s.flash.pw1 = some q)
    (hn : q.ctr = some n) (hz : n ≠ 0) (hd : q.dflt = some d) (hl : 6 ≤ i.c.data.length ∧ i.c.data.length ≤ 64)
    (he : i.c.data = q.data) :
    ∃ r', step x s (.apdu i) env =
        (⟨{ s.flash with pw1 := some { q with ctr := some d } }, some r'⟩, .reply (.sw 0x9000)) ∧
      (i.c.p2 = 0x81 → r'.m81 = true ∧ r'.m82 = r.m82) ∧ (i.c.p2 = 0x82 → r'.m82 = true ∧ r'.m81 = r.m81) ∧
      r'.lastTouch = r.lastTouch ∧ r'.cache = r.cache := by
  obtain ⟨a, f', r', ⟨rfl, rfl, h⟩, h'⟩ := step_known (x := x) (i := i) henv hr
    (P := fun a f' r' => a = .sw 0x9000 ∧ f' = { s.flash with pw1 := some { q with ctr := some d } } ∧
      (i.c.p2 = 0x81 → r'.m81 = true ∧ r'.m82 = r.m82) ∧ (i.c.p2 = 0x82 → r'.m82 = true ∧ r'.m81 = r.m81) ∧
      r'.lastTouch = r.lastTouch ∧ r'.cache = r.cache) (by
    apply process_disp hc (by rw [hi]; decide) ha
    rintro r0 ⟨st, oc, rfl⟩
    rw [show dispatch x i 0 = verify x i by simp [dispatch, hi]]
    unfold verify
    rw [if_neg (by simp [hp1])]
    have hw : verifyWhich i.c.p2 = some (.pw1, modeOff i.c.p2) := by
      rcases hp2 with h | h <;> rw [h] <;> rfl
    simp only [hw]
    apply wp_bind; apply wp_mod
    rw [if_neg (by simp [hp1]), if_neg (by simp only [Apdu.Capdu.lc, beq_iff_eq]; omega)]
    have hlen : (UInt8.ofNat i.c.lc).toNat = i.c.data.length := by
      rw [UInt8.toNat_ofNat']; simp only [Apdu.Capdu.lc]; omega
    apply wp_bind
    apply wp_onPin (Pin.verify_wp (A := noFault) (cfg_ok hx _) (by rw [hlen]; exact Nat.le_refl _))
    · rintro ⟨rc, ctr⟩ p' q' h
      have hf : (partF .pw1).get s.flash = some q := hq
      rw [hf] at h
      have hlo : Pin.lenOk (pinCfg x .pw1) (UInt8.ofNat i.c.lc) := by
        constructor
        · show (6 : UInt8) ≤ _
          rw [UInt8.le_iff_toNat_le, hlen]; exact hl.1
        · show _ ≤ (64 : UInt8)
          rw [UInt8.le_iff_toNat_le, hlen]; exact hl.2
      have io : ¬ Pin.Io noFault (some q) := by
        rintro (h | h)
        · cases h
        · rcases h q rfl with h | h
          · rw [hn] at h; cases h
          · rw [hd] at h; cases h
      cases h with
      | length h => exact absurd hlo h
      | io _ h => exact absurd h io
      | blocked p hp h0 =>
        injection hp with hp; subst hp
        rw [hn] at h0; injection h0 with h0; exact absurd h0 hz
      | wrong p c hp hc' hz' hl' hm =>
        injection hp with hp; subst hp
        refine absurd ?_ hm
        unfold Pin.candidate
        rw [hlen, ← he, List.take_of_length_le (Nat.le_refl _), List.take_of_length_le hl.2]
      | rightIo _ _ _ _ _ _ _ h => exact absurd h io
      | right p c d' hp hc' hz' hl' hm hd' =>
        injection hp with hp; subst hp
        rw [hd] at hd'; injection hd' with hd'; subst hd'
        rcases hp2 with h2 | h2
        · simp only [h2]
          wps
          all_goals first | exact ⟨rfl, rfl, fun _ => ⟨rfl, rfl⟩, fun h => absurd h (by decide), rfl, rfl⟩ | simp_all
        · simp only [h2]
          wps
          all_goals first | exact ⟨rfl, rfl, fun h => absurd h (by decide), fun _ => ⟨rfl, rfl⟩, rfl, rfl⟩ | simp_all
    · rintro p q ⟨h, _⟩; cases h)
  exact ⟨r', h', h⟩

/-- A key of the type `m.type` is there, may sign, does not ask for touch, and signs `i`'s data as `d`. -/
structure SignsAs (x : Ext) (i : In) (f : Flash) (d : Bytes) : Prop where
  key : ∃ p m, f.keys .sig = some p ∧ p.info = some m ∧ m.origin ≠ 0 ∧ m.usage &&& 1 ≠ 0 ∧
    (m.touch = 3 ∨ m.touch = 4 → i.nfc = true ∨ i.present = true) ∧
    ((m.type.isRsa = true ∧ m.type.isWei = false ∧ i.c.data.length ≤ x.cr.pub m.type * 2 / 5) ∨
     (m.type.isEcc = true ∧ m.type.isRsa = false ∧ (m.type.isWei = true → i.c.data.length ≤ x.cr.priv m.type))) ∧
    x.cr.sign m.type p.mat (digest x m.type i.c) = some d

theorem sign_ok_wp {dt : Data} {n : Byte × Byte × Byte} {b : Byte} {d : Bytes} (hm : r.m81 = true)
    (hd : f.data = some dt) (hn : dt.ctr = some n) (hb : dt.pwStatus = some b) (hs : SignsAs x i f d) :
    wp noFault (signOrAuth x i true)
      (fun a f' r' => a = .resp d 0x9000 ∧ f' = { f with data := some { dt with ctr := some (incr n) } } ∧
        r'.m81 = (b != 0) ∧ r'.m82 = r.m82)
      (fun a f' r' => a = .resp d 0x9000 ∧ f' = { f with data := some { dt with ctr := some (incr n) } } ∧
        r'.m81 = (b != 0) ∧ r'.m82 = r.m82) (fun _ _ => False) f r := by
  obtain ⟨p, m, h1, h2, h3, h4, h5, h6, h7⟩ := hs.key
  have rm : ∀ {Q : Meta → Flash → Ram → Prop} {E : Reply → Flash → Ram → Prop} {X : Flash → Ram → Prop} {r},
      Q m f r → wp noFault (readMeta .sig) Q E X f r := by
    intro Q E X r h
    unfold readMeta
    apply wp_rdOr
    · intro m' h'
      simp only [h1, h2, Option.bind_some, Option.some.injEq] at h'
      exact h' ▸ h
    · intro h'; simp [h1, h2] at h'
    · intro h'; cases h'
    · intro h'; cases h'
  unfold signOrAuth
  apply wp_bind; apply wp_get
  rw [if_neg (by simp [hm])]
  rw [if_pos rfl]
  apply wp_bind
  unfold getAttr
  apply wp_rdOr
  rotate_left
  · intro h'; simp [hd, hb] at h'
  · intro h'; cases h'
  · intro h'; cases h'
  intro b' hb'
  simp only [hd, hb, Option.bind_some, Option.some.injEq] at hb'
  subst hb'
  have rest : ∀ r0 : Ram, r0.m81 = (b != 0) → r0.m82 = r.m82 → wp noFault (show M Reply from do
      let m ← readMeta (if true = true then .sig else .aut)
      if m.touch == 3 || m.touch == 4 then touch i
      if m.origin == 0 then throw (.sw SW.refNotFound)
      if m.usage &&& 1 == 0 then throw (.sw SW.conditions)
      if m.type.isRsa && i.c.lc > x.cr.pub m.type * 2 / 5 then throw (.sw SW.wrongLength)
      if m.type.isWei && i.c.lc > x.cr.priv m.type then throw (.sw SW.wrongLength)
      let d := if m.type.isWei then List.replicate (x.cr.priv m.type - i.c.lc) 0 ++ i.c.data else i.c.data
      let (key, m) ← readKey (if true = true then .sig else .aut)
      if !m.type.isEcc && !m.type.isRsa then throw ioErr
      match x.cr.sign m.type key d with
      | none => throw ioErr
      | some sg =>
        if true = true then
          let n ← getAttr (·.ctr) (.resp sg SW.unable)
          setData (fun d => { d with ctr := some (incr n) }) (.resp sg SW.unable)
        return .resp sg SW.ok)
      (fun a f' r' => a = .resp d 0x9000 ∧ f' = { f with data := some { dt with ctr := some (incr n) } } ∧
        r'.m81 = (b != 0) ∧ r'.m82 = r.m82)
      (fun a f' r' => a = .resp d 0x9000 ∧ f' = { f with data := some { dt with ctr := some (incr n) } } ∧
        r'.m81 = (b != 0) ∧ r'.m82 = r.m82) (fun _ _ => False) f r0 := by
    intro r0 e1 e2
    show wp noFault (do
      let m ← readMeta .sig
      _) _ _ _ _ _
    apply wp_bind; apply rm
    have after : ∀ r0 : Ram, r0.m81 = (b != 0) → r0.m82 = r.m82 → wp noFault (show M Reply from do
        if m.origin == 0 then throw (.sw SW.refNotFound)
        if m.usage &&& 1 == 0 then throw (.sw SW.conditions)
        if m.type.isRsa && i.c.lc > x.cr.pub m.type * 2 / 5 then throw (.sw SW.wrongLength)
        if m.type.isWei && i.c.lc > x.cr.priv m.type then throw (.sw SW.wrongLength)
        let d := if m.type.isWei then List.replicate (x.cr.priv m.type - i.c.lc) 0 ++ i.c.data else i.c.data
        let (key, m) ← readKey .sig
        if !m.type.isEcc && !m.type.isRsa then throw ioErr
        match x.cr.sign m.type key d with
        | none => throw ioErr
        | some sg =>
          let n ← getAttr (·.ctr) (.resp sg SW.unable)
          setData (fun d => { d with ctr := some (incr n) }) (.resp sg SW.unable)
          return .resp sg SW.ok)
        (fun a f' r' => a = .resp d 0x9000 ∧ f' = { f with data := some { dt with ctr := some (incr n) } } ∧
          r'.m81 = (b != 0) ∧ r'.m82 = r.m82)
        (fun a f' r' => a = .resp d 0x9000 ∧ f' = { f with data := some { dt with ctr := some (incr n) } } ∧
          r'.m81 = (b != 0) ∧ r'.m82 = r.m82) (fun _ _ => False) f r0 := by
      intro r0 e1 e2
      dsimp only
      have c1 : (m.type.isRsa && decide (i.c.lc > x.cr.pub m.type * 2 / 5)) = false := by
        rcases h6 with ⟨_, _, h⟩ | ⟨_, h, _⟩
        · simp only [Apdu.Capdu.lc, Bool.and_eq_false_imp, decide_eq_false_iff_not, gt_iff_lt, Nat.not_lt]; exact fun _ => h
        · simp [h]
      have c2 : (m.type.isWei && decide (i.c.lc > x.cr.priv m.type)) = false := by
        rcases h6 with ⟨_, h, _⟩ | ⟨_, _, h⟩
        · simp [h]
        · simp only [Apdu.Capdu.lc, Bool.and_eq_false_imp, decide_eq_false_iff_not, gt_iff_lt, Nat.not_lt]
          exact h
      have c3 : (!m.type.isEcc && !m.type.isRsa) = false := by
        rcases h6 with ⟨h, _⟩ | ⟨h, _⟩ <;> simp [h]
      rw [if_neg (by simpa using h3), if_neg (by simpa using h4), if_neg (by simp [c1]), if_neg (by simp [c2])]
      unfold readKey
      apply wp_bind; apply wp_bind; apply rm
      apply wp_bind; apply wp_rdOr
      rotate_left
      · intro h'; simp [h1] at h'
      · intro h'; cases h'
      · intro h'; cases h'
      intro mt hmt
      simp only [h1, Option.map_some, Option.some.injEq] at hmt
      subst hmt
      apply wp_pure
      rw [if_neg (by simp [c3])]
      have h7' : x.cr.sign m.type p.mat
        (if m.type.isWei = true then List.replicate (x.cr.priv m.type - i.c.lc) 0 ++ i.c.data else i.c.data) = some d := h7
      simp only [h7']
      apply wp_bind
      unfold getAttr
      apply wp_rdOr
      rotate_left
      · intro h'; simp [hd, hn] at h'
      · intro h'; cases h'
      · intro h'; cases h'
      intro n' hn'
      simp only [hd, hn, Option.bind_some, Option.some.injEq] at hn'
      subst hn'
      apply wp_bind
      unfold setData
      apply wp_wrOr
      rotate_left
      · intro h'; simp [hd] at h'
      · intro h'; cases h'
      · intro h'; cases h'
      intro f' hf'
      simp only [hd, Option.map_some, Option.some.injEq] at hf'
      subst hf'
      exact wp_pure ⟨rfl, rfl, e1, e2⟩
    apply wp_ite <;> intro htc
    · apply wp_bind
      unfold touch
      have htc : i.nfc = true ∨ i.present = true := h5 (by simpa using htc)
      apply wp_ite <;> intro hnf
      · exact wp_pure (after r0 e1 e2)
      · apply wp_bind; apply wp_get
        apply wp_ite <;> intro _
        · exact wp_pure (after r0 e1 e2)
        · rw [if_neg (by rcases htc with h | h <;> simp_all)]
          exact wp_mod (after _ e1 e2)
    · exact after r0 e1 e2
  apply wp_ite <;> intro hz
  · apply wp_bind; apply wp_mod
    exact rest _ (by simp at hz; simp [hz]) rfl
  · exact rest _ (by simp at hz; simp [hz, hm]) rfl

/-- C35: when PW1 was verified for signing and a usable signature key is there, COMPUTE DIGITAL SIGNATURE gives the
signature, counts it, and uses the verification up if the PW1 status byte is 0 (and only then). -/
theorem C35_signature_given (s : St) (r : Ram) (i : In) (env : Env) (henv : env.all noFault)
    (hr : s.ram = some r) (ht : Active s.flash) (hc : i.c.cla = 0) (hi : IsSign i) (hm : r.m81 = true)
    (dt : Data) (n : Byte × Byte × Byte) (b : Byte) (d : Bytes)
    (hd : s.flash.data = some dt) (hn : dt.ctr = some n) (hb : dt.pwStatus = some b) (hs : SignsAs x i s.flash d) :
    ∃ r', step x s (.apdu i) env =
        (⟨{ s.flash with data := some { dt with ctr := some (incr n) } }, some r'⟩, .reply (.resp d 0x9000)) ∧
      r'.m81 = (b != 0) := by
  obtain ⟨a, f', r', ⟨rfl, rfl, h, _⟩, h'⟩ := step_known (x := x) (i := i) henv hr
    (P := fun a f' r' => a = .resp d 0x9000 ∧ f' = { s.flash with data := some { dt with ctr := some (incr n) } } ∧
      r'.m81 = (b != 0) ∧ r'.m82 = r.m82) (by
    apply process_disp hc (by rw [hi.1]; decide) ht
    rintro r0 ⟨st, oc, rfl⟩
    rw [show dispatch x i 0 = signOrAuth x i true by simp [dispatch, hi.1, hi.2.1, hi.2.2]]
    exact sign_ok_wp (r := { r with state := st, occ := oc }) hm hd hn hb hs)
  exact ⟨r', h', h⟩

/-- Without a verification COMPUTE DIGITAL SIGNATURE is answered 6982. -/
theorem C35_signature_refused (s : St) (r : Ram) (i : In) (env : Env) (henv : env.all noFault)
    (hr : s.ram = some r) (ht : Active s.flash) (hc : i.c.cla = 0) (hi : IsSign i) (hm : r.m81 = false) :
    (step x s (.apdu i) env).2 = .reply (.sw 0x6982) ∧ (step x s (.apdu i) env).1.flash = s.flash := by
  obtain ⟨a, f', r', ⟨rfl, rfl⟩, h'⟩ := step_known (x := x) (i := i) henv hr
    (P := fun a f' r' => a = .sw 0x6982 ∧ f' = s.flash) (by
    apply process_disp hc (by rw [hi.1]; decide) ht
    rintro r0 ⟨st, oc, rfl⟩
    rw [show dispatch x i 0 = signOrAuth x i true by simp [dispatch, hi.1, hi.2.1, hi.2.2]]
    unfold signOrAuth
    apply wp_bind; apply wp_get
    rw [if_pos (by simp [hm])]
    exact wp_throw ⟨rfl, rfl⟩)
  rw [h']
  exact ⟨rfl, rfl⟩

/-- C35: with the PW1 status byte 0, each verification of PW1 under 81 allows exactly one signature: the first is given,
the second is refused. -/
theorem C35_exactly_one (hx : x.Ok) (s : St) (r : Ram) (v i1 i2 : In) (ev e1 e2 : Env) (hev : ev.all noFault)
    (he1 : e1.all noFault) (he2 : e2.all noFault) (hr : s.ram = some r) (ha : Active s.flash)
    (hv : v.c.cla = 0 ∧ v.c.ins = 0x20 ∧ v.c.p1 = 0 ∧ v.c.p2 = 0x81) (q : Pin.PinFile) (n d : UInt8)
    (hq : s.flash.pw1 = some q) (hn : q.ctr = some n) (hz : n ≠ 0) (hd : q.dflt = some d)
    (hl : 6 ≤ v.c.data.length ∧ v.c.data.length ≤ 64) (he : v.c.data = q.data)
    (h1 : i1.c.cla = 0 ∧ IsSign i1) (h2 : i2.c.cla = 0 ∧ IsSign i2) (dt : Data) (c : Byte × Byte × Byte) (sg : Bytes)
    (hdt : s.flash.data = some dt) (hc : dt.ctr = some c) (hb : dt.pwStatus = some 0) (hs : SignsAs x i1 s.flash sg) :
    (run x s [] [(.apdu v, ev), (.apdu i1, e1), (.apdu i2, e2)]).2.map (·.2.2) =
      [.reply (.sw 0x6982), .reply (.resp sg 0x9000), .reply (.sw 0x9000)] := by
  obtain ⟨r1, s1, m1, _⟩ := C35_verify_ok hx s r v ev hev hr ha hv.1 hv.2.1 hv.2.2.1 (.inl hv.2.2.2) q n d hq hn hz hd hl he
  obtain ⟨r2, s2, m2⟩ := C35_signature_given (x := x)
    ⟨{ s.flash with pw1 := some { q with ctr := some d } }, some r1⟩ r1 i1 e1 he1 rfl ha h1.1 h1.2 (m1 hv.2.2.2).1
    dt c 0 sg hdt hc hb ⟨hs.key⟩
  obtain ⟨dt', hdt', hterm⟩ := ha
  rw [hdt] at hdt'; injection hdt' with hdt'; subst hdt'
  have s3 := C35_signature_refused (x := x)
    ⟨{ ({ s.flash with pw1 := some { q with ctr := some d } } : Flash) with
      data := some { dt with ctr := some (incr c) } }, some r2⟩ r2 i2 e2 he2 rfl
    (by exact ⟨{ dt with ctr := some (incr c) }, rfl, hterm⟩) h2.1 h2.2 m2
  simp only [run, s1, s2, s3.1, List.map_cons, List.map_nil]

/-- C39: GET DATA 007A reports the counter. -/
theorem C39_counter_reported (s : St) (r : Ram) (i : In) (env : Env) (henv : env.all noFault)
    (hr : s.ram = some r) (ht : Active s.flash) (hc : i.c.cla = 0) (hi : i.c.ins = 0xCA) (hp1 : i.c.p1 = 0)
    (hp2 : i.c.p2 = 0x7A) (hl : i.c.data = []) (dt : Data) (a b c : Byte)
    (hd : s.flash.data = some dt) (hn : dt.ctr = some (a, b, c)) (hk : ∀ k, metaOf s.flash k ≠ none) :
    (step x s (.apdu i) env).2 = .reply (.resp [0x7A, 5, 0x93, 3, a, b, c] 0x9000) ∧
    (step x s (.apdu i) env).1.flash = s.flash := by
  obtain ⟨y, f', r', ⟨rfl, rfl⟩, h'⟩ := step_known (x := x) (i := i) henv hr
    (P := fun y f' r' => y = .resp [0x7A, 5, 0x93, 3, a, b, c] 0x9000 ∧ f' = s.flash) (by
    apply process_disp hc (by rw [hi]; decide) ht
    rintro r0 ⟨st, oc, rfl⟩
    rw [show dispatch x i 0 = getData i by simp [dispatch, hi]]
    have htag : tagOf i.c = 0x7A := by simp [tagOf, hp1, hp2]
    have hk1 : ((s.flash.keys .sig).bind (·.info)) ≠ none := hk .sig
    have hk2 : ((s.flash.keys .dec).bind (·.info)) ≠ none := hk .dec
    have hk3 : ((s.flash.keys .aut).bind (·.info)) ≠ none := hk .aut
    unfold getData
    simp only [htag, getAttr, readMeta]
    wps
    all_goals first
      | exact absurd ‹_› hk1
      | exact absurd ‹_› hk2
      | exact absurd ‹_› hk3
      | (exfalso; simp_all [Apdu.Capdu.lc, noFault]; done)
      | (next h => simp only [hd, hn, Option.bind_some, Option.some.injEq] at h; subst h; exact ⟨rfl, rfl⟩))
  rw [h']
  exact ⟨rfl, rfl⟩

end Verif.Pgp
