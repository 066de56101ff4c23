import Verif.Lemmas.CtapKept
import Verif.Props.CtapNext
import Verif.Spec.CtapHmac
/-
getAssertion without storage errors: when it succeeds.
-/
namespace Verif.Ctap
open Cmd

variable {x : Ext} {f : Flash} {r : Ram}

/-- The request needs no user verification, or carries one that is valid. -/
def UvOk (x : Ext) (f : Flash) (r : Ram) (q : GaReq) (uv : Bool) : Prop :=
  (uv = false ∧ q.pinAuth = none ∧ q.uv ≠ .yes) ∨
  (uv = true ∧ rdCert (·.pin) f ≠ some [] ∧ r.consec ≠ 0 ∧ q.proto.isSome = true ∧ q.pinAuth ≠ some [] ∧
    Authorized x r.tok permGa q.rpHash q.cdh q.pinAuth (q.proto.getD 0))

theorem ok_hasPin {Q : Bool → Flash → Ram → Prop} {E : Err → Flash → Ram → Prop} {X : Flash → Ram → Prop}
    (h : rdCert (·.pin) f ≠ some [] → Q true f r) (h' : rdCert (·.pin) f = some [] → Q false f r) :
    wp allOk hasPin Q E X f r := by
  unfold hasPin
  apply wp_bind
  apply wp_rdF
  · intro _
    cases hp : rdCert (·.pin) f with
    | none => exact wp_pure (h (by rw [hp]; exact nofun))
    | some p =>
      cases p with
      | nil => exact wp_pure (h' hp)
      | cons a l => exact wp_pure (h (by rw [hp]; intro e; cases e))
  · intro hn; cases hn
  · intro hn; cases hn

theorem ok_gaCheck {i : In} {q : GaReq} {uv : Bool} (hrk : q.rk = .absent) (hu : UvOk x f r q uv) :
    wp allOk (gaCheck x i q) (fun _ f' r' => f' = f ∧ r'.ga = { r.ga with uv := uv, up := false } ∧ r'.sm2 = r.sm2 ∧ r'.ka = r.ka)
      (fun _ _ _ => False) (fun _ _ => False) f r := by
  unfold gaCheck emptyAuth
  have hne : q.pinAuth ≠ some [] := by
    rcases hu with ⟨_, h, _⟩ | ⟨_, _, _, _, h, _⟩
    · rw [h]; exact nofun
    · exact h
  apply wp_bind
  rw [if_neg (by simpa using hne)]
  apply wp_pure
  apply wp_bind
  apply wp_failIf
  · intro h
    rcases hu with ⟨_, h', _⟩ | ⟨_, _, _, h', _⟩
    · rw [h'] at h; cases h
    · rw [Bool.and_eq_true] at h
      cases hp : q.proto with
      | none => rw [hp] at h'; cases h'
      | some _ => rw [hp] at h; cases h.2
  intro _
  apply wp_bind
  apply wp_mod
  apply wp_bind
  apply wp_failIf
  · intro h
    rcases hu with ⟨_, _, h'⟩ | ⟨_, _, _, _, _, h'⟩
    · simp [h'] at h
    · obtain ⟨a, ha, _⟩ := h'.mac
      rw [ha] at h
      simp at h
  intro _
  apply wp_bind
  apply wp_failIf
  · intro h
    rw [hrk] at h
    cases h
  intro _
  apply wp_bind
  apply ok_hasPin
  · intro _
    rcases hu with ⟨rfl, h, _⟩ | ⟨rfl, hp, hc, _, _, hau⟩
    · simp only [h]
      exact wp_pure ⟨rfl, rfl, rfl, rfl⟩
    · obtain ⟨a, ha, hmac⟩ := hau.mac
      simp only [ha]
      simp only [Bool.not_true, Bool.false_eq_true, if_false]
      apply wp_bind
      apply wp_get
      apply wp_bind
      apply wp_failIf
      · intro h
        exact hc (eq_of_beq h)
      intro _
      apply wp_bind
      apply wp_verifyToken
      · intro h
        exact absurd (hau.inUse.symm.trans h) nofun
      intro _
      apply wp_bind
      apply wp_failIf
      · intro h
        have hm : verifyMac x r.tok.token q.cdh a (q.proto.getD 0) = true := authenticates_iff.mpr hmac
        rw [hm] at h
        cases h
      intro _
      apply wp_bind
      apply wp_mod
      apply wp_bind
      apply wp_failIf
      · intro h
        unfold Tok.verifiedFlag at h
        dsimp only at h
        rw [hau.inUse, hau.uv] at h
        cases h
      intro _
      apply wp_bind
      apply wp_failIf
      · intro h
        unfold Tok.has at h
        have := hau.perm
        simp only [Bool.not_eq_true', bne_eq_false_iff_eq] at h
        exact this h
      intro _
      apply wp_bind
      apply wp_failIf
      · intro h
        unfold Tok.rpOk at h
        dsimp only at h
        cases hr : r.tok.rp with
        | none => rw [hr] at h; cases h
        | some g =>
          rw [hr] at h
          have := hau.rp g hr
          subst this
          simp at h
      intro _
      exact wp_mod ⟨rfl, rfl, rfl, rfl⟩
  · intro hp
    rcases hu with ⟨rfl, h, _⟩ | ⟨_, h, _⟩
    · simp only [h]
      exact wp_pure ⟨rfl, rfl, rfl, rfl⟩
    · exact absurd hp h

/-- The search among the stored credentials finds one if there is one. -/
theorem foldUp_find_hit (rp nonce : Bytes) (l : List Dc) {p : Nat} {d : Dc} (hl : l[p]? = some d) (hd : d.deleted = false)
    (hr : Cid.rp d.cid = rp) (hn : Cid.nonce d.cid = nonce) (i : Nat) (s : Dc × Bool) :
    ∃ d' j, foldUp (findBody rp nonce) l i s = ((d', true), j) ∧ (∃ p' : Nat, l[p']? = some d') ∧ d'.deleted = false ∧ Cid.rp d'.cid = rp ∧ Cid.nonce d'.cid = nonce := by
  induction l generalizing p i s with
  | nil => simp at hl
  | cons b l ih =>
    unfold foldUp
    cases hb : (!b.deleted && rp == Cid.rp b.cid && nonce == Cid.nonce b.cid) with
    | true =>
      have e : findBody rp nonce i b s = ((b, true), true) := by
        unfold findBody
        rw [hb]
      rw [e]
      simp at hb
      exact ⟨b, i, rfl, ⟨0, rfl⟩, hb.1.1, hb.1.2.symm, hb.2.symm⟩
    | false =>
      have e : findBody rp nonce i b s = ((b, false), false) := by
        unfold findBody
        rw [hb]
      rw [e]
      cases p with
      | zero =>
        simp at hl
        subst hl
        rw [hd, hr, hn] at hb
        simp at hb
      | succ p =>
        obtain ⟨d', j, h1, ⟨p', h2⟩, h3⟩ := ih (p := p) (by simpa using hl) (i + 1) (b, false)
        exact ⟨d', j, h1, ⟨p' + 1, by simpa using h2⟩, h3⟩

/-- Choosing from an allow list that names the credential after others that are not of this device. -/
theorem ok_gaAllow {q : GaReq} {uv : Bool} {kh c : Bytes} (hk : rdCert (·.kh) f = some kh) (ha : Authentic x kh c) (hlen : c.length = 70)
    (hrp : Cid.rp c = q.rpHash) (hpr : protectOk c true uv = true)
    (hdc : Cid.dc c ≠ 0 → ∃ recs p d, rdRecs f = some recs ∧ LiveAt recs p d ∧ d.cid = c ∧
      ∀ p d, LiveAt recs p d → Cid.rp d.cid = Cid.rp c → Cid.nonce d.cid = Cid.nonce c → d.cid = c)
    {pre post : List Bytes} (hpre : ∀ e ∈ pre, e.length = 70 ∧ ¬ (Cid.rp e = q.rpHash ∧ Authentic x kh e)) (dc : Dc) :
    wp allOk (gaAllow x q uv (pre ++ c :: post) dc) (fun a f' r' => f' = f ∧ r' = r ∧ a.1.cid = c ∧ a.2 = khPri x kh (Cid.nonce c))
      (fun _ _ _ => False) (fun _ _ => False) f r := by
  induction pre generalizing dc with
  | nil =>
    rw [List.nil_append]
    unfold gaAllow
    wzeta
    rw [overlay_full hlen]
    rw [if_neg (by simp [hrp])]
    apply wp_bind
    refine wp_mono (ok_verifyKh hk ha) ?_ (fun _ _ _ h => h) (fun _ _ h => h)
    rintro k f' r' ⟨rfl, rfl, rfl⟩
    simp only
    rw [hpr]
    simp only [Bool.not_true, Bool.false_eq_true, if_false]
    apply wp_ite
    · intro hd
      have hd : Cid.dc c ≠ 0 := by simpa using hd
      obtain ⟨recs, p, d, h1, h2, h3, h4⟩ := hdc hd
      apply wp_bind
      apply wp_ok_rdOr (a := recs.length) (by rw [h1]; rfl)
      apply wp_bind
      apply wp_scanUp h1 (fun h => by cases h) (fun h => by cases h) (by omega)
      rw [List.drop_zero]
      obtain ⟨d', j, e, ⟨p', e1⟩, e2, e3, e4⟩ := foldUp_find_hit q.rpHash (Cid.nonce c) recs h2.1 h2.2 (by rw [h3]; exact hrp) (by rw [h3]) 0 ({ dc with cid := c }, false)
      rw [e]
      simp only [if_true]
      exact wp_pure ⟨rfl, rfl, h4 p' d' ⟨e1, e2⟩ (by rw [e3, hrp]) e4, rfl⟩
    · intro _
      exact wp_pure ⟨rfl, rfl, rfl, rfl⟩
  | cons e pre ih =>
    obtain ⟨he1, he2⟩ := hpre e (List.mem_cons_self ..)
    have next := fun dc => ih (fun e h => hpre e (List.mem_cons_of_mem _ h)) dc
    rw [List.cons_append]
    unfold gaAllow
    show wp allOk _ _ _ _ _ _
    wzeta
    rw [overlay_full he1]
    apply wp_ite
    · intro _
      exact next _
    · intro hr
      have hr : Cid.rp e = q.rpHash := by simpa using hr
      apply wp_bind
      unfold verifyKh
      apply wp_bind
      apply wp_ok_rdOr hk
      rw [if_neg]
      · exact wp_pure (next _)
      · intro h
        exact he2 ⟨hr, (eq_of_beq h).symm⟩

/-- The hmac-secret extension, for a proper request. -/
theorem ok_gaHmac {i : In} {cid : Bytes} {h : HmacSecret} (h0 : r.ga.ctr = 0) (hup : r.ga.up = true) (hs : SaltsOk x r.ka h)
    (hhe : rdCert (·.he) f ≠ none) :
    wp allOk (gaHmac x i cid h) (fun _ f' r' => f' = f ∧ ∃ s, r' = { r with ga := { r.ga with req := { r.ga.req with hs := s } } })
      (fun _ _ _ => False) (fun _ _ => False) f r := by
  obtain ⟨hp, z, salts, hz, hau, hd, _⟩ := hs
  obtain ⟨he, hhe⟩ : ∃ he, rdCert (·.he) f = some he := by
    cases h : rdCert (·.he) f with
    | none => exact absurd h hhe
    | some he => exact ⟨he, rfl⟩
  have hv : verifyMac x (z.take 32) (h.salt.take h.saltLen) h.auth h.proto = true := authenticates_iff.mpr hau
  unfold gaHmac
  apply wp_bind
  apply wp_get
  show wp allOk _ _ _ _ _ _
  wzeta
  rw [if_pos (by simp [h0])]
  apply wp_bind
  apply wp_failIf
  · intro h'; rw [hup] at h'; cases h'
  intro _
  rw [hz]
  dsimp only
  apply wp_bind
  apply wp_failIf
  · intro h'; rw [hv] at h'; cases h'
  intro _
  rw [hd]
  dsimp only
  apply wp_bind
  apply wp_mod
  apply wp_bind
  apply wp_pure
  show wp allOk _ _ _ _ _ _
  apply wp_bind
  apply wp_ok_rdOr hhe
  rw [if_neg (by
    dsimp only
    rcases hp with ⟨e, e' | e'⟩ | ⟨e, e' | e'⟩ <;> simp [e, e'])]
  apply wp_ite <;> intro _
  · apply wp_bind
    apply wp_mod
    exact wp_pure ⟨rfl, _, rfl⟩
  · exact wp_pure ⟨rfl, _, rfl⟩

/-- The end of getAssertion. -/
theorem ok_gaRest {i : In} {q : GaReq} {d : Dc} {key : Bytes} {first : Bool} {c : UInt32}
    (hhs : ∀ h, q.hs = some h → r.ga.ctr = 0 ∧ r.ga.up = true ∧ SaltsOk x r.ka h)
    (hpr : protectOk d.cid (q.allow.length > 0) r.ga.uv = true) (hc : f.counter = some c) (halg : algOk r.sm2 (Cid.alg d.cid) = true)
    (hhe : rdCert (·.he) f ≠ none) :
    wp allOk (gaRest x i q d key first) (fun a _ _ => ∃ g, a = .ga g ∧ g.cid = d.cid ∧ g.key = key ∧ g.alg = Cid.alg d.cid ∧
      g.ad.rp = q.rpHash ∧ g.cdh = q.cdh ∧ g.ad.ctr = c + 1 ∧ g.ad.uv = r.ga.uv ∧ g.ad.up = r.ga.up) (fun _ _ _ => False) (fun _ _ => False) f r := by
  unfold gaRest
  apply wp_bind
  apply wp_get
  apply wp_bind
  apply wp_failIf
  · intro h
    rw [hpr] at h
    cases h
  intro _
  show wp allOk _ _ _ _ _ _
  wzeta
  have rest : ∀ hs r0, wp allOk (do
      let ad ← makeAuthData x i q.rpHash ((if q.credBlob || q.hs.isSome then 0x80 else 0) ||| (if r.ga.uv then 0x04 else 0)
    ||| (if r.ga.up then 0x01 else 0)) (Cid.alg d.cid) (Cid.dc d.cid) (Cid.cp d.cid)
      if !algOk r.sm2 (Cid.alg d.cid) then throw (.ub .oob)
      else do
        let lbk ← if d.lbk then (do let k ← largeBlobKey x d.cid; pure (some k)) else pure none
        Cmd.mod fun r => { r with ga := { r.ga with ctr := r.ga.ctr + 1, timer := i.tick' } }
        return .ga ⟨d.cid, ad, if q.credBlob then some d.blob else none, hs, Cid.alg d.cid, key, q.cdh,
          if Cid.dc d.cid != 0 then some d.user.id else none,
          if Cid.dc d.cid != 0 && (r.ga.uv && r.ga.num > 1) then some (d.user.name, d.user.disp) else none,
          if q.allow.length == 0 && first && r.ga.num > 1 then some r.ga.num else none, lbk⟩ : M Resp)
      (fun a _ _ => ∃ g, a = .ga g ∧ g.cid = d.cid ∧ g.key = key ∧ g.alg = Cid.alg d.cid ∧
      g.ad.rp = q.rpHash ∧ g.cdh = q.cdh ∧ g.ad.ctr = c + 1 ∧ g.ad.uv = r.ga.uv ∧ g.ad.up = r.ga.up) (fun _ _ _ => False) (fun _ _ => False) f r0 := by
    intro hs r0
    have hflags := gaFlags (q.credBlob || q.hs.isSome) r.ga.uv r.ga.up
    apply wp_bind
    refine wp_mono (ok_authData i hflags.1 hc) ?_ (fun _ _ _ h => h) (fun _ _ h => h)
    rintro ad f' r' ⟨rfl, rfl, rfl⟩
    rw [halg]
    simp only [Bool.not_true, Bool.false_eq_true, if_false]
    cases hlbk : d.lbk with
    | false =>
      simp only [Bool.false_eq_true, if_false]
      apply wp_bind
      apply wp_pure
      apply wp_bind
      apply wp_mod
      exact wp_pure ⟨_, rfl, rfl, rfl, rfl, rfl, rfl, rfl, hflags.2.1, hflags.2.2⟩
    | true =>
      simp only [if_true]
      obtain ⟨he, hhe⟩ : ∃ he, rdCert (·.he) f = some he := by
        cases h : rdCert (·.he) f with
        | none => exact absurd h hhe
        | some he => exact ⟨he, rfl⟩
      unfold largeBlobKey
      apply wp_bind
      apply wp_bind
      apply wp_bind
      refine wp_ok_rdOr (a := he) ?_ ?_
      · rw [← hhe]
        unfold rdCert
        cases f.cert <;> rfl
      apply wp_pure
      apply wp_pure
      apply wp_bind
      apply wp_mod
      exact wp_pure ⟨_, rfl, rfl, rfl, rfl, rfl, rfl, rfl, hflags.2.1, hflags.2.2⟩
  cases hh : q.hs with
  | none =>
    rw [hh] at rest
    exact wp_bind (wp_pure (rest none r))
  | some h =>
    rw [hh] at rest
    obtain ⟨h1, h2, h3⟩ := hhs h hh
    simp only
    apply wp_bind
    refine wp_mono (ok_gaHmac h1 h2 h3 hhe) ?_ (fun _ _ _ h => h) (fun _ _ h => h)
    rintro o f' r' ⟨rfl, _⟩
    exact wp_bind (wp_pure (rest (some o) r'))

/-- The user is there. -/
theorem ok_takePresence {i : In} {a : Option Bytes} (h : i.present) :
    wp allOk (takePresence i a) (fun _ f' r' => f' = f ∧ ∃ t, r' = { r with tok := t }) (fun _ _ _ => False) (fun _ _ => False) f r := by
  have hw : ∀ c {f : Flash} {r : Ram}, wp allOk (wait i c) (fun _ f' r' => f' = f ∧ r' = r) (fun _ _ _ => False) (fun _ _ => False) f r := by
    intro c f r
    unfold wait
    rcases h with h | h
    · rw [h]
      exact wp_pure ⟨rfl, rfl⟩
    · apply wp_ite <;> intro _
      · exact wp_pure ⟨rfl, rfl⟩
      · rw [h]
        exact wp_pure ⟨rfl, rfl⟩
  unfold takePresence
  apply wp_bind
  apply wp_get
  apply wp_ite <;> intro _
  · exact wp_mod ⟨rfl, _, rfl⟩
  · apply wp_bind
    refine wp_mono (hw _) ?_ (fun _ _ _ h => h) (fun _ _ h => h)
    rintro _ f' r' ⟨rfl, rfl⟩
    exact wp_mod ⟨rfl, _, rfl⟩

end Verif.Ctap
