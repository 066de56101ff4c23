import Verif.Lemmas.CtapSession
import Verif.Spec.CtapHmac
/-
What getAssertion and getNextAssertion put into the hmac-secret output and the large-blob key.
-/
namespace Verif.Ctap
open Cmd

section
variable (x : Ext) (i : In) {A : Fault → Prop} {f : Flash} {r : Ram}

/-- The number of bytes of the salts. -/
def HmacSecret.plain (h : HmacSecret) : Nat := if h.proto = 1 then h.saltLen else h.saltLen - 16

/-- The output `o` of the extension for `cid`, and what is kept of the request. -/
def HmacDone (f : Flash) (r : Ram) (cid : Bytes) (h : HmacSecret) (o : Bytes) (s : Option HmacSecret) : Prop :=
  ∃ he h', rdCert (·.he) f = some he ∧
    (r.ga.ctr = 0 → r.ga.up = true ∧ ∃ z p, decapsulate x r.ka h.key h.proto = some z ∧
      verifyMac x (z.take 32) (h.salt.take h.saltLen) h.auth h.proto = true ∧
      decrypt x z (h.salt.take h.saltLen) h.proto = some p ∧ h' = { h with key := z, salt := p }) ∧
    (r.ga.ctr ≠ 0 → h' = h) ∧ (h.proto = 1 ∨ h.proto = 2) ∧ (h.plain = 32 ∨ h.plain = 64) ∧
    o = encrypt x i h'.key (hmacOut x he cid h'.salt h.plain r.ga.uv) h.proto ∧
    s = some (if r.ga.ctr + 1 = r.ga.num then { h' with key := List.replicate 64 0 } else h')

theorem wp_gaHmacOut (cid : Bytes) (h : HmacSecret) (hr : r.ga.req.hs = some h) {Q : Bytes → Flash → Ram → Prop}
    (hq : ∀ o s, HmacDone x i f r cid h o s → Q o f { r with ga := { r.ga with req := { r.ga.req with hs := s } } }) :
    wp A (gaHmac x i cid h) Q (fun _ _ _ => True) (fun _ _ => True) f r := by
  unfold gaHmac
  apply wp_bind
  apply wp_get
  have fin : ∀ (h' : HmacSecret) (r' : Ram), r' = { r with ga := { r.ga with req := { r.ga.req with hs := some h' } } } →
      h'.proto = h.proto → h'.saltLen = h.saltLen →
      (∀ o s, (∃ he, rdCert (·.he) f = some he ∧ (h.proto = 1 ∨ h.proto = 2) ∧ (h.plain = 32 ∨ h.plain = 64) ∧
        o = encrypt x i h'.key (hmacOut x he cid h'.salt h.plain r.ga.uv) h.proto ∧
        s = some (if r.ga.ctr + 1 = r.ga.num then { h' with key := List.replicate 64 0 } else h')) →
        Q o f { r with ga := { r.ga with req := { r.ga.req with hs := s } } }) →
      wp A (do
        let n := if h'.proto == 1 then h'.saltLen else h'.saltLen - 16
        let he ← Cmd.rdOr (rdCert (·.he)) (.ub .uninit)
        if !(n == 32 || n == 64) || !(h'.proto == 1 || h'.proto == 2) then throw (.ub .uninit)
        else
          if r.ga.ctr + 1 == r.ga.num then
            Cmd.mod fun r => { r with ga := { r.ga with req := { r.ga.req with
              hs := r.ga.req.hs.map fun h => { h with key := List.replicate 64 0 } } } }
          else pure ()
          return encrypt x i h'.key (hmacOut x he cid h'.salt n r.ga.uv) h'.proto : M Bytes)
        Q (fun _ _ _ => True) (fun _ _ => True) f r' := by
    intro h' r' hr' hp hl hq'
    have hn : (if (h'.proto == 1) = true then h'.saltLen else h'.saltLen - 16) = h.plain := by
      unfold HmacSecret.plain
      rw [hp, hl]
      by_cases h1 : h.proto = 1 <;> simp [h1]
    show wp A _ _ _ _ f r'
    wzeta
    rw [hn, hp]
    apply wp_bind
    apply wp_rdOr
    · intro he hhe
      apply wp_ite <;> intro hc
      · exact wp_throw trivial
      have hc1 : h.plain = 32 ∨ h.plain = 64 := by
        by_cases a : h.plain = 32 <;> by_cases b : h.plain = 64 <;> simp_all
      have hc2 : h.proto = 1 ∨ h.proto = 2 := by
        by_cases a : h.proto = 1 <;> by_cases b : h.proto = 2 <;> simp_all
      apply wp_ite <;> intro hlast
      · apply wp_bind
        apply wp_mod
        apply wp_pure
        have hlast : r.ga.ctr + 1 = r.ga.num := by simpa using hlast
        subst hr'
        exact hq' _ _ ⟨he, hhe, hc2, hc1, rfl, by rw [if_pos hlast]; rfl⟩
      · apply wp_pure
        have hlast : ¬ r.ga.ctr + 1 = r.ga.num := by simpa using hlast
        subst hr'
        exact hq' _ _ ⟨he, hhe, hc2, hc1, rfl, by rw [if_neg hlast]⟩
    all_goals (intro _; trivial)
  show wp A _ _ _ _ f r
  wzeta
  apply wp_ite <;> intro h0
  · have h0 : r.ga.ctr = 0 := by simpa using h0
    apply wp_bind
    apply wp_failIf
    · intro _; trivial
    intro hup
    cases hz : decapsulate x r.ka h.key h.proto with
    | none => exact wp_fail trivial
    | some z =>
      apply wp_bind
      apply wp_failIf
      · intro _; trivial
      intro hv
      cases hd : decrypt x z (h.salt.take h.saltLen) h.proto with
      | none => exact wp_fail trivial
      | some p =>
        apply wp_bind
        apply wp_mod
        refine fin { h with key := z, salt := p } _ rfl rfl rfl ?_
        rintro o s ⟨he, e1, e2, e3, e4, e5⟩
        exact hq o s ⟨he, _, e1, fun _ => ⟨by simpa using hup, z, p, hz, by simpa using hv, hd, rfl⟩, fun h => absurd h0 h, e2, e3, e4, e5⟩
  · have h0 : r.ga.ctr ≠ 0 := by simpa using h0
    refine fin h r ?_ rfl rfl ?_
    · rw [← hr]
    · rintro o s ⟨he, e1, e2, e3, e4, e5⟩
      exact hq o s ⟨he, h, e1, fun h => absurd h h0, fun _ => rfl, e2, e3, e4, e5⟩

/-- Extension output and large-blob key of an assertion by `cid`. -/
def ExtDone (f : Flash) (r : Ram) (g : GaResp) (r' : Ram) : Prop :=
  (r.ga.req.hs = none → g.hmacSecret = none) ∧
  (∀ h, r.ga.req.hs = some h → ∃ o, g.hmacSecret = some o ∧
    ∃ r0 : Ram, r0.ga.ctr = r.ga.ctr ∧ r0.ka = r.ka ∧ r0.ga.num = r'.ga.num ∧ r0.ga.uv = g.ad.uv ∧ r0.ga.up = g.ad.up ∧
      HmacDone x i f r0 g.cid h o r'.ga.req.hs) ∧
  ∀ k, g.lbk = some k → ∃ he, rdCert (·.he) f = some he ∧ k = x.hmac (lbTweak he) ((Cid.nonce g.cid).take 16)

theorem wp_gaRestExt (d : Dc) (key : Bytes) (first : Bool) {r0 : Ram} (h0 : r0.ga.req = r.ga.req) (h1 : r0.ga.ctr = r.ga.ctr) (h2 : r0.ka = r.ka) :
    wp A (gaRest x i r.ga.req d key first) (fun a _ r' => ∃ g, a = .ga g ∧ ExtDone x i f r g r')
      (fun _ _ _ => True) (fun _ _ => True) f r0 := by
  generalize hq : r.ga.req = q at *
  unfold gaRest
  apply wp_bind
  apply wp_get
  apply wp_bind
  apply wp_failIf
  · intro _; trivial
  intro _
  show wp A _ _ _ _ f r0
  wzeta
  have rest : ∀ hs s, (q.hs = none → hs = none) → (∀ h, q.hs = some h → ∃ o, hs = some o ∧ HmacDone x i f r0 d.cid h o s) → wp A (do
      let ad ← makeAuthData x i q.rpHash ((if q.credBlob || q.hs.isSome then 0x80 else 0) ||| (if r0.ga.uv then 0x04 else 0)
    ||| (if r0.ga.up then 0x01 else 0)) (Cid.alg d.cid) (Cid.dc d.cid) (Cid.cp d.cid)
      if !algOk r0.sm2 (Cid.alg d.cid) then throw (.ub .oob)
      else do
        let lbk ← if d.lbk then (do let k ← largeBlobKey x d.cid; pure (some k)) else pure none
        Cmd.mod fun r => { r with ga := { r.ga with ctr := r.ga.ctr + 1, timer := i.tick' } }
        return .ga ⟨d.cid, ad, if q.credBlob then some d.blob else none, hs, Cid.alg d.cid, key, q.cdh,
          if Cid.dc d.cid != 0 then some d.user.id else none,
          if Cid.dc d.cid != 0 && (r0.ga.uv && r0.ga.num > 1) then some (d.user.name, d.user.disp) else none,
          if q.allow.length == 0 && first && r0.ga.num > 1 then some r0.ga.num else none, lbk⟩ : M Resp)
      (fun a _ r' => ∃ g, a = .ga g ∧ ExtDone x i f r g r')
      (fun _ _ _ => True) (fun _ _ => True) f { r0 with ga := { r0.ga with req := { r0.ga.req with hs := s } } } := by
    intro hs s hn hsm
    apply wp_bind
    apply wp_authData
    intro c f' hc hf
    have hfl := gaFlags (q.credBlob || q.hs.isSome) r0.ga.uv r0.ga.up
    refine ⟨fun h => absurd hfl.1 h, fun _ => ?_⟩
    apply wp_ite <;> intro ha
    · exact wp_throw trivial
    have hmake : ∀ lbk, (∀ k, lbk = some k → ∃ he, rdCert (·.he) f = some he ∧ k = x.hmac (lbTweak he) ((Cid.nonce d.cid).take 16)) →
        wp A (do
          Cmd.mod fun r => { r with ga := { r.ga with ctr := r.ga.ctr + 1, timer := i.tick' } }
          return .ga ⟨d.cid, ⟨q.rpHash, (if q.credBlob || q.hs.isSome then 0x80 else 0) ||| (if r0.ga.uv then 0x04 else 0)
            ||| (if r0.ga.up then 0x01 else 0), c + 1, none⟩, if q.credBlob then some d.blob else none, hs, Cid.alg d.cid, key, q.cdh,
            if Cid.dc d.cid != 0 then some d.user.id else none,
            if Cid.dc d.cid != 0 && (r0.ga.uv && r0.ga.num > 1) then some (d.user.name, d.user.disp) else none,
            if q.allow.length == 0 && first && r0.ga.num > 1 then some r0.ga.num else none, lbk⟩ : M Resp)
          (fun a _ r' => ∃ g, a = .ga g ∧ ExtDone x i f r g r')
          (fun _ _ _ => True) (fun _ _ => True) f' { r0 with ga := { r0.ga with req := { r0.ga.req with hs := s } } } := by
      intro lbk hlb
      apply wp_bind
      apply wp_mod
      apply wp_pure
      refine ⟨_, rfl, ?_, ?_, hlb⟩
      · rw [hq]
        exact hn
      · rw [hq]
        intro h hh
        obtain ⟨o, e1, e2⟩ := hsm h hh
        exact ⟨o, e1, r0, h1, h2, rfl, hfl.2.1.symm, hfl.2.2.symm, e2⟩
    show wp A _ _ _ _ f' _
    wzeta
    apply wp_ite <;> intro _
    · apply wp_bind
      apply wp_bind
      unfold largeBlobKey
      apply wp_bind
      apply wp_rdOr
      · intro he hhe
        apply wp_pure
        apply wp_pure
        refine hmake _ ?_
        intro k hk
        cases hk
        refine ⟨he, ?_, rfl⟩
        rw [← hhe, updCert_map hf]
        unfold rdCert
        cases f.cert <;> rfl
      all_goals (intro _; trivial)
    · apply wp_bind
      apply wp_pure
      exact hmake none nofun
  cases hh : q.hs with
  | none =>
    rw [hh] at rest
    exact rest none r0.ga.req.hs (fun _ => rfl) nofun
  | some h =>
    rw [hh] at rest
    simp only
    apply wp_bind
    apply wp_gaHmacOut x i _ h (by rw [h0, hh])
    intro o s ho
    exact wp_bind (wp_pure (rest (some o) s nofun (fun h' e => ⟨o, rfl, by cases e; exact ho⟩)))

theorem wp_gaFinishExt :
    wp A (gaFinish x i) (fun a _ r' => ∃ g, a = .ga g ∧ ExtDone x i f r g r')
      (fun _ _ _ => True) (fun _ _ => True) f r := by
  unfold gaFinish
  apply wp_bind
  apply wp_gaSelect
  intro d key num list hch
  apply wp_bind
  apply wp_get
  show wp A _ _ _ _ f _
  wzeta
  apply wp_ite <;> intro hf
  · apply wp_bind
    apply wp_takePresence
    intro hp
    apply wp_bind
    apply wp_mod
    exact wp_gaRestExt x i d key _ rfl rfl rfl
  · exact wp_gaRestExt x i d key _ rfl rfl rfl

end

section
variable {x : Ext}

/-- The extensions of a response to getAssertion. -/
theorem ga_ext {s : St} {i : In} {q : GaReq} {env : Env} {g : GaResp} (h : (step x s (.cbor i (.ga (.ok q))) env).2 = .resp (.ga g)) :
    ∃ f1 r1, f1.cert = s.flash.cert ∧ r1.ga.req = q ∧ r1.ga.ctr = 0 ∧ r1.ka = s.ram.ka ∧
      ExtDone x i f1 r1 g (step x s (.cbor i (.ga (.ok q))) env).1.ram := by
  obtain ⟨r', ⟨g', hg, f1, r1, e1, e2, e3, e4, e5⟩, hr'⟩ := resp_of x i (s := s) (q := .ga (.ok q)) (Q := fun a _ r' => ∃ g, a = .ga g ∧
    ∃ f1 r1, f1.cert = s.flash.cert ∧ r1.ga.req = q ∧ r1.ga.ctr = 0 ∧ r1.ka = s.ram.ka ∧ ExtDone x i f1 r1 g r') (by
    show wp _ (getAssertion x i (.ok q)) _ _ _ _ _
    unfold getAssertion
    apply wp_bind
    apply wp_mod
    apply wp_bind
    apply wp_frame st_consistency
    intro _ f1 r1 h1
    have hr := h1.ram
    subst hr
    show wp _ _ _ _ _ f1 _
    simp only
    apply wp_bind
    apply wp_mod
    apply wp_bind
    apply wp_gaCheck
    intro b t hb ht
    refine wp_mono (wp_gaFinishExt x i) ?_ (fun _ _ _ _ => trivial) (fun _ _ _ => trivial)
    rintro a f' r' ⟨g, rfl, hg⟩
    refine ⟨g, rfl, f1, _, h1.cert, ?_, ?_, ?_, hg⟩ <;> rfl) h
  cases hg
  refine ⟨f1, r1, e1, e2, e3, e4, ?_⟩
  rw [hr']
  exact e5

/-- The extensions of a response to getNextAssertion. -/
theorem gna_ext {s : St} {i : In} {env : Env} {g : GaResp} (h : (step x s (.cbor i .gna) env).2 = .resp (.ga g)) :
    ExtDone x i s.flash s.ram g (step x s (.cbor i .gna) env).1.ram := by
  obtain ⟨r', ⟨g', hg, e5⟩, hr'⟩ := resp_of x i (s := s) (q := .gna) (Q := fun a _ r' => ∃ g, a = .ga g ∧
    ExtDone x i s.flash s.ram g r') (by
    show wp _ (getNextAssertion x i) _ _ _ _ _
    unfold getNextAssertion
    apply wp_bind
    apply wp_get
    apply wp_bind
    apply wp_failIf
    · intro _; trivial
    intro h1
    apply wp_bind
    apply wp_failIf
    · intro _; trivial
    intro h2
    apply wp_bind
    apply wp_failIf
    · intro _; trivial
    intro h3
    refine wp_mono (wp_gaFinishExt x i) ?_ (fun _ _ _ _ => trivial) (fun _ _ _ => trivial)
    rintro a f' r' ⟨g, rfl, hg⟩
    exact ⟨g, rfl, hg⟩) h
  cases hg
  rw [hr']
  exact e5

end
end Verif.Ctap
