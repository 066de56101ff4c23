import Verif.Lemmas.CtapUse
/-
What a successful getAssertion or getNextAssertion means.
-/
namespace Verif.Ctap
open Cmd

/-! ### Loops -/

theorem foldDown_listBody (rp : Bytes) (uv : Bool) (l : List Dc) (k : Nat) (hk : k ≤ l.length) (acc : List Nat) :
    foldDown (listBody rp uv) l k acc = acc ++ (List.range k).reverse.filter fun p =>
      match l[p]? with
      | none => false
      | some d => !d.deleted && protectOk d.cid false uv && rp == Cid.rp d.cid := by
  induction k generalizing acc with
  | zero => simp [foldDown]
  | succ k ih =>
    have hi : k < l.length := hk
    unfold foldDown
    rw [List.getElem?_eq_getElem hi]
    simp only
    rw [ih (Nat.le_of_lt hi), List.range_succ, List.reverse_append, List.reverse_singleton, List.singleton_append,
      List.filter_cons, List.getElem?_eq_getElem hi]
    simp only
    unfold listBody
    generalize l[k] = d
    by_cases hd : d.deleted = true
    · simp [hd]
    · by_cases hp : protectOk d.cid false uv = true
      · by_cases hr : (rp == Cid.rp d.cid) = true
        · simp [hd, hp, hr]
        · simp [hd, hp, hr]
      · simp [hd, hp]

theorem foldDown_matching (rp : Bytes) (uv : Bool) (l : List Dc) :
    foldDown (listBody rp uv) l l.length [] = matching l rp uv := by
  rw [foldDown_listBody rp uv l _ (Nat.le_refl _)]
  rfl

theorem foldUp_find (rp n : Bytes) (l : List Dc) (i : Nat) (s : Dc × Bool) (hs : s.2 = false) :
    (foldUp (findBody rp n) l i s).1.2 = true →
      ∃ p : Nat, l[p]? = some (foldUp (findBody rp n) l i s).1.1 ∧
        (foldUp (findBody rp n) l i s).1.1.deleted = false ∧
        Cid.rp (foldUp (findBody rp n) l i s).1.1.cid = rp ∧ Cid.nonce (foldUp (findBody rp n) l i s).1.1.cid = n := by
  induction l generalizing i s with
  | nil =>
    intro h
    unfold foldUp at h
    rw [hs] at h
    cases h
  | cons b l ih =>
    unfold foldUp findBody
    simp only
    cases hh : (!b.deleted && rp == Cid.rp b.cid && n == Cid.nonce b.cid) with
    | true =>
      intro _
      simp only [Bool.and_eq_true, Bool.not_eq_true', beq_iff_eq] at hh
      exact ⟨0, rfl, hh.1.1, hh.1.2.symm, hh.2.symm⟩
    | false =>
      intro h
      obtain ⟨p, h1, h2⟩ := ih _ _ rfl h
      exact ⟨p + 1, by rw [List.getElem?_cons_succ]; exact h1, h2⟩

section
variable (x : Ext) (i : In) {A : Fault → Prop} {f : Flash} {r : Ram}

theorem wp_verifyKh {cid : Bytes} {Q : Option Bytes → Flash → Ram → Prop} (h0 : Q none f r)
    (h1 : ∀ kh, rdCert (·.kh) f = some kh → Authentic x kh cid → Q (some (khPri x kh (Cid.nonce cid))) f r) :
    wp A (verifyKh x cid) Q (fun _ _ _ => True) (fun _ _ => True) f r := by
  unfold verifyKh
  apply wp_bind
  apply wp_rdOr
  · intro kh hk
    cases hc : (khTag x kh (Cid.nonce cid) (Cid.rp cid) == Cid.tag cid) with
    | true =>
      simp only [if_true]
      exact wp_pure (h1 kh hk (eq_of_beq hc).symm)
    | false =>
      simp only [Bool.false_eq_true, if_false]
      exact wp_pure h0
  all_goals (intros; trivial)

/-- A credential chosen from the allow list: `e` is the identifier that was verified. -/
structure Allowed (q : GaReq) (uv : Bool) (f : Flash) (d : Dc) (key e : Bytes) : Prop where
  auth : ∃ kh, rdCert (·.kh) f = some kh ∧ Authentic x kh e ∧ key = khPri x kh (Cid.nonce d.cid)
  rpE : Cid.rp e = q.rpHash
  rp : Cid.rp d.cid = q.rpHash
  nonce : Cid.nonce d.cid = Cid.nonce e
  protect : protectOk e true uv = true
  src : (d.cid = e ∧ Cid.dc e = 0) ∨ (Cid.dc e ≠ 0 ∧ Live f d)

theorem overlay_full {b d : Bytes} (h : d.length = 70) : overlay b d = d := by
  unfold overlay
  rw [if_pos (by omega), List.take_append_of_le_length (by omega), List.take_of_length_le (by omega)]

theorem wp_gaAllow (q : GaReq) (uv : Bool) (l : List Bytes) (dc : Dc) :
    wp A (gaAllow x q uv l dc) (fun d f' r' => f' = f ∧ r' = r ∧ ∃ e, Allowed x q uv f d.1 d.2 e ∧
      ((∀ c ∈ l, c.length = 70) → e ∈ l)) (fun _ _ _ => True) (fun _ _ => True) f r := by
  induction l generalizing dc with
  | nil => exact wp_fail trivial
  | cons c l ih =>
    have next : ∀ dc', wp A (gaAllow x q uv l dc') (fun d f' r' => f' = f ∧ r' = r ∧
        ∃ e, Allowed x q uv f d.1 d.2 e ∧ ((∀ d ∈ c :: l, d.length = 70) → e ∈ c :: l))
        (fun _ _ _ => True) (fun _ _ => True) f r := by
      intro dc'
      refine wp_mono (ih dc') ?_ (fun _ _ _ _ => trivial) (fun _ _ _ => trivial)
      rintro d f' r' ⟨h1, h2, e, h3, h4⟩
      exact ⟨h1, h2, e, h3, fun h => List.mem_cons_of_mem _ (h4 fun d hd => h d (List.mem_cons_of_mem _ hd))⟩
    unfold gaAllow
    show wp A _ _ _ _ f r
    wzeta
    generalize he : overlay dc.cid c = e
    have hmem : (∀ d ∈ c :: l, d.length = 70) → e ∈ c :: l := by
      intro h
      have hc : c.length = 70 := h c (List.mem_cons_self ..)
      rw [← he, overlay_full hc]
      exact List.mem_cons_self ..
    apply wp_ite <;> intro hrp
    · exact next _
    · have hrp' : Cid.rp e = q.rpHash := by simpa using hrp
      apply wp_bind
      apply wp_verifyKh
      · exact next _
      · intro kh hk ha
        simp only
        apply wp_ite <;> intro hp
        · exact next _
        · have hp' : protectOk e true uv = true := by simpa using hp
          apply wp_ite <;> intro hdc
          · apply wp_bind
            apply wp_rdOr
            · intro n hn
              apply wp_bind
              unfold rdRecs at hn
              cases hl : rdRecs f with
              | none =>
                unfold rdRecs at hl
                rw [hl] at hn
                cases hn
              | some recs =>
                have hn' : n = recs.length := by
                  unfold rdRecs at hl
                  rw [hl] at hn
                  cases hn
                  rfl
                apply wp_scanUp hl (by intros; trivial) (by intros; trivial) (by omega)
                rw [List.drop_zero]
                have hf := foldUp_find q.rpHash (Cid.nonce e) recs 0 ({ dc with cid := e }, false) rfl
                generalize foldUp (findBody q.rpHash (Cid.nonce e)) recs 0 ({ dc with cid := e }, false) = o at hf
                obtain ⟨⟨d', hit⟩, j⟩ := o
                simp only
                apply wp_ite <;> intro hh
                · obtain ⟨p, h1, h2, h3, h4⟩ := hf hh
                  apply wp_pure
                  refine ⟨rfl, rfl, e, ⟨⟨kh, hk, ha, ?_⟩, hrp', h3, h4, hp', Or.inr ⟨by simpa using hdc, recs, p, hl, h1, h2⟩⟩, hmem⟩
                  show _ = khPri x kh (Cid.nonce d'.cid)
                  rw [h4]
                · exact next _
            all_goals (intros; trivial)
          · apply wp_pure
            exact ⟨rfl, rfl, e, ⟨⟨kh, hk, ha, rfl⟩, hrp', hrp', rfl, hp', Or.inl ⟨rfl, by simpa using hdc⟩⟩, hmem⟩

theorem wp_gaAuth (q : GaReq) (p : Bool) {Q : Unit → Flash → Ram → Prop}
    (h : ∀ b t, (b = true → Authorized x r.tok permGa q.rpHash q.cdh q.pinAuth (q.proto.getD 0)) →
      t.presentFlag = r.tok.presentFlag →
      Q () f { r with tok := t, ga := { r.ga with uv := if b then true else r.ga.uv } }) :
    wp A (gaAuth x i q p) Q (fun _ _ _ => True) (fun _ _ => True) f r := by
  unfold gaAuth
  have h0 := h false r.tok (fun h => by cases h) rfl
  cases ha : q.pinAuth with
  | none => exact wp_pure h0
  | some a =>
    simp only
    cases p with
    | false => exact wp_pure h0
    | true =>
      simp only [Bool.not_true, Bool.false_eq_true, if_false]
      apply wp_bind
      apply wp_get
      apply wp_bind
      apply wp_failIf
      · intro _; trivial
      intro _
      apply wp_bind
      apply wp_verifyToken
      · intro _
        apply wp_bind
        exact wp_fail trivial
      intro hu
      apply wp_bind
      apply wp_failIf
      · intro _; trivial
      intro hm
      apply wp_bind
      apply wp_mod
      apply wp_bind
      apply wp_failIf
      · intro _; trivial
      intro hv
      apply wp_bind
      apply wp_failIf
      · intro _; trivial
      intro hp
      apply wp_bind
      apply wp_failIf
      · intro _; trivial
      intro hr
      apply wp_mod
      refine h true _ (fun _ => ⟨hu, ?_, ?_, rpOk_iff (by simpa using hr), a, ha, authenticates_of (by simpa using hm)⟩) rfl
      · unfold Tok.verifiedFlag at hv
        rw [hu] at hv
        simpa using hv
      · unfold Tok.has at hp
        simpa using hp

theorem wp_gaCheck (q : GaReq) {Q : Unit → Flash → Ram → Prop}
    (h : ∀ b t, (b = true → Authorized x r.tok permGa q.rpHash q.cdh q.pinAuth (q.proto.getD 0)) →
      t.presentFlag = r.tok.presentFlag → Q () f { r with tok := t, ga := { r.ga with uv := b, up := false } }) :
    wp A (gaCheck x i q) Q (fun _ _ _ => True) (fun _ _ => True) f r := by
  unfold gaCheck
  apply wp_bind
  apply wp_same (same_emptyAuth _ _)
  intro _
  apply wp_bind
  apply wp_failIf
  · intro _; trivial
  intro _
  apply wp_bind
  apply wp_mod
  apply wp_bind
  apply wp_failIf
  · intro _; trivial
  intro _
  apply wp_bind
  apply wp_failIf
  · intro _; trivial
  intro _
  apply wp_bind
  apply wp_same same_hasPin
  intro p
  refine wp_gaAuth (r := { r with ga := { r.ga with uv := false, up := false } }) x i q p ?_
  intro b t hb ht
  have := h b t hb ht
  cases b <;> exact this

/-- The credential that is chosen. -/
structure Chosen (f : Flash) (r : Ram) (d : Dc) (key : Bytes) (num : Nat) (list : List Nat) : Prop where
  named : r.ga.req.allow ≠ [] → num = 1 ∧ list = r.ga.list ∧ ∃ e, Allowed x r.ga.req r.ga.uv f d key e ∧
    ((∀ c ∈ r.ga.req.allow, c.length = 70) → e ∈ r.ga.req.allow)
  found : r.ga.req.allow = [] → ∃ recs kh, rdRecs f = some recs ∧ recs[list.getD r.ga.ctr 0]? = some d ∧
    rdCert (·.kh) f = some kh ∧ Authentic x kh d.cid ∧ key = khPri x kh (Cid.nonce d.cid) ∧
    (r.ga.ctr = 0 → list = matching recs r.ga.req.rpHash r.ga.uv ∧ num = list.length ∧ list ≠ []) ∧
    (r.ga.ctr ≠ 0 → list = r.ga.list ∧ num = r.ga.num)

theorem wp_gaSelect {Q : Dc × Bytes → Flash → Ram → Prop}
    (h : ∀ d key num list, Chosen x f r d key num list →
      Q (d, key) f { r with ga := { r.ga with num := num, list := list } }) :
    wp A (gaSelect x) Q (fun _ _ _ => True) (fun _ _ => True) f r := by
  unfold gaSelect
  apply wp_bind
  apply wp_get
  wzeta
  by_cases ha : r.ga.req.allow = []
  · rw [if_neg (by simp [ha])]
    have last : ∀ num list, (∀ recs, rdRecs f = some recs →
          (r.ga.ctr = 0 → list = matching recs r.ga.req.rpHash r.ga.uv ∧ num = list.length ∧ list ≠ []) ∧
          (r.ga.ctr ≠ 0 → list = r.ga.list ∧ num = r.ga.num)) →
        wp A (do
            let r ← Cmd.get
            let d ← rdRec rdRecs (r.ga.list.getD r.ga.ctr 0)
            match ← verifyKh x d.cid with
            | none => fail Code.unhandled
            | some key => return (d, key) : M (Dc × Bytes)) Q (fun _ _ _ => True) (fun _ _ => True) f
          { r with ga := { r.ga with num := num, list := list } } := by
      intro num list hl
      apply wp_bind
      apply wp_get
      apply wp_bind
      apply wp_rdRec
      · intro recs d hr hd
        apply wp_bind
        apply wp_verifyKh
        · exact wp_fail trivial
        · intro kh hk hauth
          apply wp_pure
          apply h
          refine ⟨fun h' => absurd ha h', fun _ => ⟨recs, kh, hr, hd, hk, hauth, rfl, hl recs hr⟩⟩
      all_goals (intros; trivial)
    by_cases hc : r.ga.ctr = 0
    · rw [if_pos (by simp [hc])]
      apply wp_bind
      apply wp_rdOr
      · intro n hn
        apply wp_bind
        apply wp_mod
        apply wp_bind
        cases hl : rdRecs f with
        | none => rw [hl] at hn; cases hn
        | some recs =>
          rw [hl] at hn
          cases hn
          apply wp_scanDown hl (by intros; trivial) (by intros; trivial) (Nat.le_refl _)
          rw [foldDown_matching]
          apply wp_bind
          apply wp_mod
          apply wp_bind
          apply wp_failIf
          · intro _; trivial
          intro hne
          apply last (matching recs r.ga.req.rpHash r.ga.uv).length (matching recs r.ga.req.rpHash r.ga.uv)
          intro recs' hr'
          rw [hl] at hr'
          cases hr'
          refine ⟨fun _ => ⟨rfl, rfl, ?_⟩, fun h' => absurd hc h'⟩
          intro h'
          rw [h'] at hne
          cases hne
      all_goals (intros; trivial)
    · rw [if_neg (by simp [hc])]
      exact last r.ga.num r.ga.list fun recs _ => ⟨fun h' => absurd h' hc, fun _ => ⟨rfl, rfl⟩⟩
  · rw [if_pos (by cases h' : r.ga.req.allow with | nil => exact absurd h' ha | cons => simp)]
    apply wp_bind
    refine wp_mono (wp_gaAllow x _ _ _ _) ?_ (fun _ _ _ _ => trivial) (fun _ _ _ => trivial)
    rintro ⟨d, key⟩ f' r' ⟨rfl, rfl, e, h1, h2⟩
    apply wp_bind
    apply wp_mod
    apply wp_pure
    exact h d key 1 r'.ga.list ⟨fun _ => ⟨rfl, rfl, e, h1, h2⟩, fun h' => absurd h' ha⟩

/-- The hmac-secret extension only changes its own part of the request. -/
theorem wp_gaHmac (cid : Bytes) (hs : HmacSecret) {Q : Bytes → Flash → Ram → Prop}
    (h : ∀ o s, Q o f { r with ga := { r.ga with req := { r.ga.req with hs := s } } }) :
    wp A (gaHmac x i cid hs) Q (fun _ _ _ => True) (fun _ _ => True) f r := by
  unfold gaHmac
  cps
  all_goals first
    | trivial
    | exact h _ _
    | skip

/-- What a successful assertion did; `first` is `ctr = 0`. -/
structure GaDone (f : Flash) (r : Ram) (g : GaResp) (f' : Flash) (r' : Ram) (d : Dc) : Prop where
  chosen : Chosen x f r d g.key r'.ga.num r'.ga.list
  cid : g.cid = d.cid
  rp : g.ad.rp = r.ga.req.rpHash
  cdh : g.cdh = r.ga.req.cdh
  alg : g.alg = Cid.alg d.cid
  algOk : algOk r.sm2 (Cid.alg d.cid) = true
  protect : protectOk d.cid (r.ga.req.allow.length > 0) g.ad.uv = true
  uv : g.ad.uv = r.ga.uv
  up : g.ad.up = true → r.ga.ctr = 0 ∧ r.ga.req.up ≠ .no ∧ (r.tok.presentFlag = true ∨ i.present) ∨ r.ga.up = true
  ctr : ∃ c, rdCert (·.ctr) f = some c ∧ g.ad.ctr = c + 1 ∧ f' = { f with cert := f.cert.map fun e => { e with ctr := some (c + 1) } }
  count : g.count = if r.ga.req.allow = [] ∧ r.ga.ctr = 0 ∧ r'.ga.num > 1 then some r'.ga.num else none
  userId : g.userId = if Cid.dc d.cid != 0 then some d.user.id else none
  blob : g.blob = if r.ga.req.credBlob then some d.blob else none
  ramCtr : r'.ga.ctr = r.ga.ctr + 1
  ramUv : r'.ga.uv = r.ga.uv
  ramUp : r'.ga.up = g.ad.up
  ramTimer : r'.ga.timer = i.tick'
  ramReq : ∃ s, r'.ga.req = { r.ga.req with hs := s }
  ramHs : r.ga.req.hs = none → r'.ga.req.hs = none
  tok : r'.tok = if r.ga.ctr = 0 ∧ r.ga.req.up ≠ .no then r.tok.clearFlags else r.tok
  upIs : g.ad.up = if r.ga.ctr = 0 ∧ r.ga.req.up ≠ .no then true else r.ga.up
  ram : r' = { r with tok := r'.tok, ga := r'.ga }

theorem gaFlags (e uv up : Bool) :
    (((if e then 0x80 else 0) ||| (if uv then 0x04 else 0) ||| (if up then 0x01 else 0) : Byte) &&& 0x40 = 0) ∧
    (((if e then 0x80 else 0) ||| (if uv then 0x04 else 0) ||| (if up then 0x01 else 0) : Byte) &&& 0x04 != 0) = uv ∧
    (((if e then 0x80 else 0) ||| (if uv then 0x04 else 0) ||| (if up then 0x01 else 0) : Byte) &&& 0x01 != 0) = up := by
  cases e <;> cases uv <;> cases up <;> decide

/-- `gaFinish` after the wait for the user. -/
def gaRest (q : GaReq) (d : Dc) (key : Bytes) (first : Bool) : M Resp := do
  let r ← Cmd.get
  failIf (!protectOk d.cid (q.allow.length > 0) r.ga.uv) Code.noCredentials
  let hs ← match q.hs with
    | none => pure none
    | some h => do
      let o ← gaHmac x i d.cid h
      pure (some o)
  let flags : Byte := (if q.credBlob || q.hs.isSome then 0x80 else 0) ||| (if r.ga.uv then 0x04 else 0)
    ||| (if r.ga.up then 0x01 else 0)
  let ad ← makeAuthData x i q.rpHash flags (Cid.alg d.cid) (Cid.dc d.cid) (Cid.cp d.cid)
  if !algOk r.sm2 (Cid.alg d.cid) then throw (.ub .oob)
  else do
    let lbk ← if d.lbk then (do let k ← largeBlobKey x d.cid; pure (some k)) else pure none
    Cmd.mod fun r => { r with ga := { r.ga with ctr := r.ga.ctr + 1, timer := i.tick' } }
    let details := r.ga.uv && r.ga.num > 1
    return .ga ⟨d.cid, ad, if q.credBlob then some d.blob else none, hs, Cid.alg d.cid, key, q.cdh,
      if Cid.dc d.cid != 0 then some d.user.id else none,
      if Cid.dc d.cid != 0 && details then some (d.user.name, d.user.disp) else none,
      if q.allow.length == 0 && first && r.ga.num > 1 then some r.ga.num else none, lbk⟩

theorem wp_gaRest (q : GaReq) (d : Dc) (key : Bytes) (first : Bool) :
    wp A (gaRest x i q d key first) (fun a f' r' => ∃ g, a = .ga g ∧ g.key = key ∧ g.cid = d.cid ∧ g.ad.rp = q.rpHash ∧
        g.cdh = q.cdh ∧ g.alg = Cid.alg d.cid ∧ algOk r.sm2 (Cid.alg d.cid) = true ∧
        protectOk d.cid (q.allow.length > 0) g.ad.uv = true ∧ g.ad.uv = r.ga.uv ∧ g.ad.up = r.ga.up ∧
        (∃ c, rdCert (·.ctr) f = some c ∧ g.ad.ctr = c + 1 ∧
          f' = { f with cert := f.cert.map fun e => { e with ctr := some (c + 1) } }) ∧
        g.count = (if q.allow.length == 0 && first && r.ga.num > 1 then some r.ga.num else none) ∧
        g.userId = (if Cid.dc d.cid != 0 then some d.user.id else none) ∧
        g.blob = (if q.credBlob then some d.blob else none) ∧
        ∃ s, (q.hs = none → s = r.ga.req.hs) ∧ r' = { r with ga := { r.ga with ctr := r.ga.ctr + 1, timer := i.tick', req := { r.ga.req with hs := s } } })
      (fun _ _ _ => True) (fun _ _ => True) f r := by
  unfold gaRest
  apply wp_bind
  apply wp_get
  apply wp_bind
  apply wp_failIf
  · intro _; trivial
  intro hp
  have hp' : protectOk d.cid (decide (q.allow.length > 0)) r.ga.uv = true := by simpa using hp
  show wp A _ _ _ _ f r
  wzeta
  generalize hr0 : r = r0
  have rest : ∀ hs s, (q.hs = none → s = r0.ga.req.hs) → wp A (do
      let ad ← makeAuthData x i q.rpHash ((if q.credBlob || q.hs.isSome then 0x80 else 0) ||| (if r0.ga.uv then 0x04 else 0)
    ||| (if r0.ga.up then 0x01 else 0)) (Cid.alg d.cid) (Cid.dc d.cid) (Cid.cp d.cid)
      if !algOk r0.sm2 (Cid.alg d.cid) then throw (.ub .oob)
      else do
        let lbk ← if d.lbk then (do let k ← largeBlobKey x d.cid; pure (some k)) else pure none
        Cmd.mod fun r => { r with ga := { r.ga with ctr := r.ga.ctr + 1, timer := i.tick' } }
        return .ga ⟨d.cid, ad, if q.credBlob then some d.blob else none, hs, Cid.alg d.cid, key, q.cdh,
          if Cid.dc d.cid != 0 then some d.user.id else none,
          if Cid.dc d.cid != 0 && (r0.ga.uv && r0.ga.num > 1) then some (d.user.name, d.user.disp) else none,
          if q.allow.length == 0 && first && r0.ga.num > 1 then some r0.ga.num else none, lbk⟩ : M Resp)
      (fun a f' r' => ∃ g, a = .ga g ∧ g.key = key ∧ g.cid = d.cid ∧ g.ad.rp = q.rpHash ∧
        g.cdh = q.cdh ∧ g.alg = Cid.alg d.cid ∧ algOk r0.sm2 (Cid.alg d.cid) = true ∧
        protectOk d.cid (q.allow.length > 0) g.ad.uv = true ∧ g.ad.uv = r0.ga.uv ∧ g.ad.up = r0.ga.up ∧
        (∃ c, rdCert (·.ctr) f = some c ∧ g.ad.ctr = c + 1 ∧
          f' = { f with cert := f.cert.map fun e => { e with ctr := some (c + 1) } }) ∧
        g.count = (if q.allow.length == 0 && first && r0.ga.num > 1 then some r0.ga.num else none) ∧
        g.userId = (if Cid.dc d.cid != 0 then some d.user.id else none) ∧
        g.blob = (if q.credBlob then some d.blob else none) ∧
        ∃ s, (q.hs = none → s = r0.ga.req.hs) ∧ r' = { r0 with ga := { r0.ga with ctr := r0.ga.ctr + 1, timer := i.tick', req := { r0.ga.req with hs := s } } })
      (fun _ _ _ => True) (fun _ _ => True) f { r0 with ga := { r0.ga with req := { r0.ga.req with hs := s } } } := by
    intro hs s hsn
    apply wp_bind
    apply wp_authData
    intro c f' hc hf
    have hfl := gaFlags (q.credBlob || q.hs.isSome) r0.ga.uv r0.ga.up
    refine ⟨fun h => absurd hfl.1 h, fun _ => ?_⟩
    apply wp_ite <;> intro ha
    · exact wp_throw trivial
    · have fin : ∀ lbk, wp A (do
          Cmd.mod fun r => { r with ga := { r.ga with ctr := r.ga.ctr + 1, timer := i.tick' } }
          return .ga ⟨d.cid, ⟨q.rpHash, (if q.credBlob || q.hs.isSome then 0x80 else 0) ||| (if r0.ga.uv then 0x04 else 0)
            ||| (if r0.ga.up then 0x01 else 0), c + 1, none⟩, if q.credBlob then some d.blob else none, hs, Cid.alg d.cid, key, q.cdh,
            if Cid.dc d.cid != 0 then some d.user.id else none,
            if Cid.dc d.cid != 0 && (r0.ga.uv && r0.ga.num > 1) then some (d.user.name, d.user.disp) else none,
            if q.allow.length == 0 && first && r0.ga.num > 1 then some r0.ga.num else none, lbk⟩ : M Resp)
          (fun a f' r' => ∃ g, a = .ga g ∧ g.key = key ∧ g.cid = d.cid ∧ g.ad.rp = q.rpHash ∧
            g.cdh = q.cdh ∧ g.alg = Cid.alg d.cid ∧ algOk r0.sm2 (Cid.alg d.cid) = true ∧
            protectOk d.cid (q.allow.length > 0) g.ad.uv = true ∧ g.ad.uv = r0.ga.uv ∧ g.ad.up = r0.ga.up ∧
            (∃ c, rdCert (·.ctr) f = some c ∧ g.ad.ctr = c + 1 ∧
              f' = { f with cert := f.cert.map fun e => { e with ctr := some (c + 1) } }) ∧
            g.count = (if q.allow.length == 0 && first && r0.ga.num > 1 then some r0.ga.num else none) ∧
            g.userId = (if Cid.dc d.cid != 0 then some d.user.id else none) ∧
            g.blob = (if q.credBlob then some d.blob else none) ∧
            ∃ s, (q.hs = none → s = r0.ga.req.hs) ∧ r' = { r0 with ga := { r0.ga with ctr := r0.ga.ctr + 1, timer := i.tick', req := { r0.ga.req with hs := s } } })
          (fun _ _ _ => True) (fun _ _ => True) f' { r0 with ga := { r0.ga with req := { r0.ga.req with hs := s } } } := by
        intro lbk
        apply wp_bind
        apply wp_mod
        apply wp_pure
        refine ⟨_, rfl, rfl, rfl, rfl, rfl, rfl, by simpa using ha, ?_, hfl.2.1, hfl.2.2, ⟨c, hc, rfl, updCert_map hf⟩, rfl, rfl,
          rfl, s, hsn, rfl⟩
        show protectOk d.cid _ (AuthData.uv _) = true
        have : AuthData.uv ⟨q.rpHash, (if q.credBlob || q.hs.isSome then 0x80 else 0) ||| (if r0.ga.uv then 0x04 else 0)
            ||| (if r0.ga.up then 0x01 else 0), c + 1, none⟩ = r0.ga.uv := hfl.2.1
        rw [this, ← hr0]
        exact hp'
      show wp A _ _ _ _ f' _
      wzeta
      apply wp_ite <;> intro _
      · apply wp_bind
        apply wp_bind
        apply wp_same (same_largeBlobKey _ _)
        intro k
        apply wp_pure
        exact fin (some k)
      · apply wp_bind
        apply wp_pure
        exact fin none
  rw [← hr0] at rest ⊢
  cases hh : q.hs with
  | none =>
    rw [hh] at rest
    exact rest none r.ga.req.hs (fun _ => rfl)
  | some h =>
    rw [hh] at rest
    simp only
    apply wp_bind
    apply wp_gaHmac
    intro o s
    first
      | exact rest (some o) s (fun h => nomatch h)
      | exact wp_bind (wp_pure (rest (some o) s (fun h => nomatch h)))

theorem wp_gaFinish :
    wp A (gaFinish x i) (fun a f' r' => ∃ g d, a = .ga g ∧ GaDone x i f r g f' r' d)
      (fun _ _ _ => True) (fun _ _ => True) f r := by
  unfold gaFinish
  apply wp_bind
  apply wp_gaSelect
  intro d key num list hch
  apply wp_bind
  apply wp_get
  show wp A _ _ _ _ f _
  wzeta
  have rest : ∀ t up, (t = if r.ga.ctr = 0 ∧ r.ga.req.up ≠ .no then r.tok.clearFlags else r.tok) →
      (up = if r.ga.ctr = 0 ∧ r.ga.req.up ≠ .no then true else r.ga.up) →
      (up = true → r.ga.ctr = 0 ∧ r.ga.req.up ≠ .no ∧ (r.tok.presentFlag = true ∨ i.present) ∨ r.ga.up = true) →
      wp A (gaRest x i r.ga.req d key (r.ga.ctr == 0)) (fun a f' r' => ∃ g d, a = .ga g ∧ GaDone x i f r g f' r' d)
      (fun _ _ _ => True) (fun _ _ => True) f
      { r with tok := t, ga := { r.ga with num := num, list := list, up := up } } := by
    intro t up ht hupIs hup
    refine wp_mono (wp_gaRest x i _ _ _ _) ?_ (fun _ _ _ _ => trivial) (fun _ _ _ => trivial)
    rintro a f' r' ⟨g, rfl, h1, h2, h3, h4, h5, h6, h7, h8, h9, h10, h11, h12, h13, s, hsn, rfl⟩
    refine ⟨g, d, rfl, ?_, h2, h3, h4, h5, h6, h7, h8, fun h => hup (h9.symm.trans h), h10, ?_, h12, h13, rfl, rfl, h9.symm, rfl,
      ⟨s, rfl⟩, fun h => (hsn h).trans h, ht, h9.trans hupIs, rfl⟩
    · rw [h1]
      exact hch
    · rw [h11]
      simp only [List.length_eq_zero_iff, beq_iff_eq, Bool.and_eq_true, decide_eq_true_eq]
      split
      · rename_i h; rw [if_pos ⟨h.1.1, h.1.2, h.2⟩]
      · rename_i h; rw [if_neg (fun h' => h ⟨⟨h'.1, h'.2.1⟩, h'.2.2⟩)]
  apply wp_ite <;> intro hf
  · apply wp_bind
    apply wp_takePresence
    intro hp
    apply wp_bind
    apply wp_mod
    simp only [Bool.and_eq_true, beq_iff_eq, bne_iff_ne] at hf
    exact rest r.tok.clearFlags true (by rw [if_pos hf]) (by rw [if_pos hf]) (fun _ => Or.inl ⟨hf.1, hf.2, hp⟩)
  · simp only [Bool.and_eq_true, beq_iff_eq, bne_iff_ne] at hf
    exact rest r.tok r.ga.up (by rw [if_neg hf]) (by rw [if_neg hf]) (fun h => Or.inr h)

theorem wp_getAssertion (q : GaReq) :
    wp A (getAssertion x i (.ok q)) (fun a f' r' => ∃ g d f1 r1, a = .ga g ∧ Stored f r f1 r ∧
        (r1.ga.uv = true → Authorized x r.tok permGa q.rpHash q.cdh q.pinAuth (q.proto.getD 0)) ∧
        r1.tok.presentFlag = r.tok.presentFlag ∧ r1.ga.up = false ∧ r1.ga.ctr = 0 ∧ r1.ga.req = q ∧
        r1 = { r with tok := r1.tok, ga := r1.ga } ∧ GaDone x i f1 r1 g f' r' d)
      (fun _ _ _ => True) (fun _ _ => True) f r := by
  unfold getAssertion
  apply wp_bind
  apply wp_mod
  apply wp_bind
  apply wp_frame st_consistency
  intro _ f1 r1 h1
  have hr := h1.ram
  subst hr
  show wp A _ _ _ _ f1 _
  simp only
  apply wp_bind
  apply wp_mod
  apply wp_bind
  apply wp_gaCheck
  intro b t hb ht
  refine wp_mono (wp_gaFinish x i) ?_ (fun _ _ _ _ => trivial) (fun _ _ _ => trivial)
  rintro a f' r' ⟨g, d, rfl, hg⟩
  exact ⟨g, d, f1, _, rfl, ⟨h1.cert, h1.lb, h1.lbt, rfl⟩, hb, ht, rfl, rfl, rfl, rfl, hg⟩

theorem wp_getNext :
    wp A (getNextAssertion x i) (fun a f' r' => (r.lastCmd = 0x02 ∨ r.lastCmd = 0x08) ∧ r.ga.ctr < r.ga.num ∧
        i.tick - r.ga.timer ≤ 30000 ∧ ∃ g d, a = .ga g ∧ GaDone x i f r g f' r' d)
      (fun _ _ _ => True) (fun _ _ => True) f r := by
  unfold getNextAssertion
  apply wp_bind
  apply wp_get
  apply wp_bind
  apply wp_failIf
  · intro _; trivial
  intro h1
  apply wp_bind
  apply wp_failIf
  · intro _; trivial
  intro h2
  apply wp_bind
  apply wp_failIf
  · intro _; trivial
  intro h3
  refine wp_mono (wp_gaFinish x i) ?_ (fun _ _ _ _ => trivial) (fun _ _ _ => trivial)
  intro a f' r' h
  refine ⟨?_, by simpa using h2, ?_, h⟩
  · simp only [Bool.and_eq_false_iff, bne_eq_false_iff_eq] at h1
    exact h1
  · have := of_decide_eq_false h3
    exact UInt32.not_lt.mp this

end
end Verif.Ctap
