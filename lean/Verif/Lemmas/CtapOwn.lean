import Verif.Props.CtapLife
/-
Every stored credential is one that this device has made.
-/
namespace Verif.Ctap
open Cmd

variable {x : Ext} {α : Type} {kh : Bytes}

/-- The key of the device, and that every stored credential was made with it. -/
def Own (x : Ext) (kh : Bytes) (f : Flash) : Prop :=
  rdCert (·.kh) f = some kh ∧ Slots (fun _ c => Authentic x kh c) f

theorem own_frame {m : M α} (h1 : Rel Keep m) (h2 : Rel Secret m) : Rel (Keeps (Own x kh)) m := by
  intro A f r
  exact wp_mono (wp_and (keeps_keep (S := Slots (fun _ c => Authentic x kh c)) h1 A f r) (h2 A f r))
    (fun _ _ _ h s => ⟨h.2.kh.trans s.1, h.1 s.2⟩) (fun _ _ _ h s => ⟨h.2.kh.trans s.1, h.1 s.2⟩)
    (fun _ _ h s => ⟨h.2.kh.trans s.1, h.1 s.2⟩)

theorem own_slots {m : M α} (h1 : Rel (Keeps (Slots (fun _ c => Authentic x kh c))) m) (h2 : Rel Secret m) : Rel (Keeps (Own x kh)) m := by
  intro A f r
  exact wp_mono (wp_and (h1 A f r) (h2 A f r))
    (fun _ _ _ h s => ⟨h.2.kh.trans s.1, h.1 s.2⟩) (fun _ _ _ h s => ⟨h.2.kh.trans s.1, h.1 s.2⟩)
    (fun _ _ h s => ⟨h.2.kh.trans s.1, h.1 s.2⟩)

theorem own_mcFinish (i : In) (q : McReq) (uv : Bool) (hm : ∀ k m, (x.hmac k m).length = 32) (hn : i.rndNonce.length = 16)
    (hp : q.rpHash.length = 32) : Rel (Keeps (Own x kh)) (mcFinish x i q uv) := by
  refine keeps_of (R := Secret) (sc_mcFinish x i q uv) fun A f r hs => ?_
  unfold mcFinish
  apply wp_bind
  apply wp_failIf
  · intro _; exact hs
  intro _
  apply wp_bind
  have hk1 := own_frame (x := x) (kh := kh) (kp_makeAuthData x i q.rpHash (0x41 ||| (if mcExt q then 0x80 else 0) ||| (if uv then 0x04 else 0)) q.alg
    (if q.rk == .yes then 1 else 0) q.protect) (sc_makeAuthData x i _ _ _ _ _) A f r
  have hk2 : wp A (makeAuthData x i q.rpHash (0x41 ||| (if mcExt q then 0x80 else 0) ||| (if uv then 0x04 else 0)) q.alg
    (if q.rk == .yes then 1 else 0) q.protect) (fun a _ _ => Authentic x kh (a.att.getD []))
      (fun _ _ _ => True) (fun _ _ => True) f r := by
    apply wp_authData
    intro c f' _ _
    refine ⟨fun _ kh' hk' _ => ?_, fun h => absurd h (mcFlags _ _).1⟩
    rw [hs.1] at hk'
    cases hk'
    exact (makeCid_parts hm hn hp).1
  refine wp_mono (wp_and hk1 hk2) ?_ (fun _ _ _ h => h.1 hs) (fun _ _ h => h.1 hs)
  rintro ad f1 r1 ⟨k1, k2⟩
  have tail : Rel (Keeps (Own x kh)) (do
      let _ ← Cmd.rdOr (rdCert (·.key)) (.code Code.unhandled)
      let _ ← Cmd.rdOr (rdCert (fun c => some c.data)) (.code Code.unhandled)
      let lbk ← if q.lbk then (do let k ← largeBlobKey x (ad.att.getD []); pure (some k)) else pure none
      return Resp.mc ⟨ad, q.credBlob.map fun b => b.length ≤ 32 && q.rk == .yes,
        if q.protect != 0 then some q.protect else none, q.hmacSecret, q.cdh, lbk⟩) := by
    apply own_frame
    · rels (first | exact kp_same (same_largeBlobKey x _) | keeps)
    · rels (first | exact sc_same (same_largeBlobKey x _) | secrets)
  have fin : ∀ {f : Flash} {r : Ram}, Own x kh f → _ := fun {f r} (hs : Own x kh f) =>
    wp_mono (tail A f r) (fun _ f' _ h => h hs) (fun _ f' _ h => h hs) (fun f' _ h => h hs) (Q' := fun _ f' _ => Own x kh f') (E' := fun _ f' _ => Own x kh f') (X' := fun f' _ => Own x kh f')
  by_cases hrk : q.rk = .yes
  · rw [if_pos (by simp [hrk])]
    apply wp_bind
    exact wp_mono (own_slots (slots_mcStore (P := fun _ c => Authentic x kh c) fun _ => k2) (sc_stored (st_mcStore q _)) A f1 r1)
      (fun _ _ _ h => fin (h (k1 hs))) (fun _ _ _ h => h (k1 hs)) (fun _ _ h => h (k1 hs))
  · rw [if_neg (by simp [hrk])]
    exact fin (k1 hs)

theorem own_makeCredential (i : In) (q : McReq) (hm : ∀ k m, (x.hmac k m).length = 32) (hn : i.rndNonce.length = 16)
    (hp : q.rpHash.length = 32) : Rel (Keeps (Own x kh)) (makeCredential x i (.ok q)) := by
  unfold makeCredential
  rels (first
    | exact own_slots slots_consistency (by unfold consistency; rels (secrets))
    | exact own_mcFinish i q _ hm hn hp
    | exact own_frame (kp_same (same_emptyAuth _ _)) (sc_same (same_emptyAuth _ _))
    | exact own_frame (kp_same same_hasPin) (sc_same same_hasPin)
    | exact own_frame (kp_mcAuth x i _) (sc_mcAuth x i _)
    | exact own_frame (kp_same (same_mcExclude x i _ _ _ _)) (sc_same (same_mcExclude x i _ _ _ _))
    | exact own_frame (kp_takePresence i _) (sc_takePresence i _))

theorem own_step (hm : ∀ k m, (x.hmac k m).length = 32) (s : St) (op : Op) (env : Env) (hr : op.resets = false)
    (hp : op.powers = true → noFail env) (hz : op.sized) (hl : s.flash.lb.isSome = true) (hs : Own x kh s.flash) :
    Slots (fun _ c => Authentic x kh c) (step x s op env).1.flash := by
  by_cases h : ∃ i q, op = .cbor i (.mc (.ok q))
  · obtain ⟨i, q, rfl⟩ := h
    exact (cbor_wp (s := s) (i := i) (q := .mc (.ok q)) (env := env) (P := fun p : St × Out => Own x kh p.1.flash)
      (A := fun _ => True) (fun _ => trivial) (own_makeCredential i q hm hz.1 hz.2 _ _ _)
      (fun _ _ _ h => h hs) (fun _ _ _ h => h hs) (fun _ _ _ h => h hs) (fun _ _ h => h hs)).2
  · exact keeps_step x s op env hr hp hl slots_consistency (fun i q _ e => absurd ⟨i, q, e⟩ h)
      (fun _ _ _ _ _ => slots_cmDelete) (fun _ _ => slots_cmUpdate) hs.2

theorem own_run (hm : ∀ k m, (x.hmac k m).length = 32) (ops : List (Op × Env)) (s : St) (hl : s.flash.lb.isSome = true)
    (hf : Along x Fair s ops) (hs : Own x kh s.flash) : Own x kh (run x s ops).1.flash := by
  induction ops generalizing s with
  | nil => exact hs
  | cons o ops ih =>
    obtain ⟨op, e⟩ := o
    obtain ⟨h1, h4⟩ := hf
    rw [run_cons]
    have hsec := secrets_run (x := x) [(op, e)] s hl ⟨h1, trivial⟩
    refine ih _ hsec.2.2.2 h4 ⟨hsec.1.trans hs.1, own_step hm s op e h1.1 (fun h => h1.2.1 (Or.inl h)) h1.2.2 hl hs⟩

end Verif.Ctap
