import Verif.Lemmas.PivGen
import Verif.Props.PivData
/-
The keys of the slots answer when they are asked, if nothing fails.
-/
set_option linter.unusedSimpArgs false
namespace Verif.Piv
open Cmd Verif.Spec.Piv Verif.KeyFile Verif.Spec.Key
open Verif.Key (KeyMat)

variable {A : Fault → Prop} {x : Ext} {i : In} {f : Flash} {r : Ram}

theorem buf_ok {pre ch post : Bytes} {n : Nat} (hm : i.c.data = pre ++ ch ++ post)
    (hn : n ≤ ch.length + i.tail.length) : buf i pre.length n = .ok ((ch ++ (post ++ i.tail)).take n) := by
  have e : (i.c.data ++ i.tail).drop pre.length = ch ++ (post ++ i.tail) := by
    rw [hm]; simp [List.append_assoc, List.drop_left]
  unfold buf
  rw [rdRange_eq_ok, e]
  refine ⟨?_, rfl⟩
  rw [hm]
  simp
  omega

theorem secCheck_live {m : Meta} (h : Allowed m r) : wp A (secCheck m.pin)
    (fun _ f' r' => r' = { r with consumed := true } ∧ f' = f) (fun _ _ _ => False) (fun _ _ => False) f r := by
  obtain ⟨h1, h2⟩ := h
  unfold secCheck
  wps
  all_goals simp_all

theorem sign_live {sl : Slot} {k : KeyMat} {m : Meta} {pre ch post sg : Bytes} (hk : f.keys sl = some ⟨k, some m⟩)
    (hm : i.c.data = pre ++ ch ++ post) (hc : Computes x m.type k ch sg) (hal : Allowed m r)
    (ht : m.type.isEcc = true ∨ m.type.isRsa = true)
    (hl : m.type.isRsa = true ∨ m.type.isWei = true ∨ ch.length = x.cr.priv m.type)
    (hb : x.cr.priv m.type ≤ i.tail.length) :
    wp noFault (caseSign x i (.slot sl) m pre.length ch.length)
      (fun a f' r' => a = .resp (answer m.type.isRsa (if m.type.isRsa then x.cr.sig m.type else sg.length) sg) 0x9000 ∧ f' = f ∧
        r' = { authReset r with consumed := true })
      (fun _ _ _ => False) (fun _ _ => False) f r := by
  unfold caseSign
  apply wp_bind; apply wp_mod
  apply wp_bind
  refine wp_mono (secCheck_live (m := m) (r := authReset r) ⟨hal.1, hal.2⟩) ?_ (fun _ _ _ h => h) (fun _ _ h => h)
  rintro _ f' r' ⟨rfl, rfl⟩
  unfold Computes at hc
  by_cases hr : m.type.isRsa = true
  · rw [if_pos hr] at hc
    have hw := isRsa_not_wei hr
    apply wp_ite <;> intro h
    · simp [hr, hw, hc.1] at h
    apply wp_bind
    refine wp_mono (readKey_val hk) ?_ (fun _ _ _ h => by cases h.2.2.2) (fun _ _ h => by cases h.1)
    rintro ⟨key, m'⟩ f'' r'' ⟨e, rfl, rfl⟩
    cases e
    apply wp_ite <;> intro h
    rotate_left
    · exact absurd hr h
    have hbuf := buf_ok (n := x.cr.pub m.type) hm (by omega)
    apply wp_bind
    apply wp_mem
    · intro d hd
      rw [hbuf] at hd
      cases hd
      rw [← hc.1, List.take_left, hc.2]
      exact wp_pure ⟨by simp [answer, hr], rfl, rfl⟩
    · intro u hu; rw [hbuf] at hu; cases hu
  · rw [if_neg hr] at hc
    have he : m.type.isEcc = true := ht.resolve_right hr
    apply wp_ite <;> intro h
    · by_cases hw : m.type.isWei = true
      · rw [if_pos hw] at hc
        have := hc.1
        simp [hr, hw] at h
        omega
      · simp [hr, hw] at h
    apply wp_bind
    refine wp_mono (readKey_val hk) ?_ (fun _ _ _ h => by cases h.2.2.2) (fun _ _ h => by cases h.1)
    rintro ⟨key, m'⟩ f'' r'' ⟨e, rfl, rfl⟩
    cases e
    apply wp_ite <;> intro h
    · exact absurd h hr
    apply wp_ite <;> intro h'
    rotate_left
    · exact absurd he h'
    have hbuf := buf_ok (n := x.cr.priv m.type) hm (by omega)
    apply wp_bind
    apply wp_mem
    · intro d hd
      rw [hbuf] at hd
      cases hd
      by_cases hw : m.type.isWei = true
      · rw [if_pos hw] at hc
        obtain ⟨hcl, v, hv, rfl⟩ := hc
        rw [if_pos hw, List.take_take, Nat.min_eq_left hcl, List.take_left]
        unfold leftPad at hv
        simp only [hv]
        exact wp_pure ⟨by simp [answer, hr, hw], rfl, rfl⟩
      · rw [if_neg hw] at hc
        have hl : ch.length = x.cr.priv m.type := by
          rcases hl with h | h | h
          · exact absurd h hr
          · exact absurd h hw
          · exact h
        rw [if_neg hw, ← hl, List.take_left]
        simp only [hc]
        exact wp_pure ⟨by simp [answer, hr, hw], rfl, rfl⟩
    · intro u hu; rw [hbuf] at hu; cases hu

theorem ecdh_live {sl : Slot} {k : KeyMat} {m : Meta} {pre pt post z : Bytes} (hk : f.keys sl = some ⟨k, some m⟩)
    (hm : i.c.data = pre ++ pt ++ post) (hc : AgreesOn x m.type k pt z) (hal : Allowed m r)
    (ht : m.type ≠ .tdea) :
    wp noFault (caseEcdh x i (.slot sl) m pre.length pt.length)
      (fun a f' r' => a = .resp (answer false (x.cr.priv m.type) z) 0x9000 ∧ f' = f ∧ r' = { authReset r with consumed := true })
      (fun _ _ _ => False) (fun _ _ => False) f r := by
  unfold caseEcdh
  apply wp_bind; apply wp_mod
  apply wp_bind
  refine wp_mono (secCheck_live (m := m) (r := authReset r) ⟨hal.1, hal.2⟩) ?_ (fun _ _ _ h => h) (fun _ _ h => h)
  rintro _ f' r' ⟨rfl, rfl⟩
  apply wp_ite <;> intro h
  · exact absurd (by simpa using h) ht
  unfold AgreesOn at hc
  by_cases hw : m.type.isWei = true
  · rw [if_pos hw] at hc ⊢
    obtain ⟨b, q, rfl, hq, hz⟩ := hc
    apply wp_ite <;> intro h
    · simp [hq] at h
    apply wp_bind
    refine wp_mono (readKey_val hk) ?_ (fun _ _ _ h => by cases h.2.2.2) (fun _ _ h => by cases h.1)
    rintro ⟨key, m'⟩ f'' r'' ⟨e, rfl, rfl⟩
    cases e
    have hbuf := buf_ok (i := i) (pre := pre ++ [b]) (ch := q) (post := post) (n := x.cr.pub m.type) (by rw [hm]; simp) (by omega)
    rw [List.length_append, List.length_singleton] at hbuf
    apply wp_bind
    apply wp_mem
    · intro d hd
      simp only [hw, if_true] at hd
      rw [hbuf] at hd
      cases hd
      rw [← hq, List.take_left, hz]
      exact wp_pure ⟨by simp [answer], rfl, rfl⟩
    · intro u hu; simp only [hw, if_true] at hu; rw [hbuf] at hu; cases hu
  · rw [if_neg hw] at hc ⊢
    obtain ⟨hq, hz⟩ := hc
    apply wp_ite <;> intro h
    · simp [hq] at h
    apply wp_bind
    refine wp_mono (readKey_val hk) ?_ (fun _ _ _ h => by cases h.2.2.2) (fun _ _ h => by cases h.1)
    rintro ⟨key, m'⟩ f'' r'' ⟨e, rfl, rfl⟩
    cases e
    have hbuf := buf_ok (i := i) (n := x.cr.pub m.type) hm (by omega)
    apply wp_bind
    apply wp_mem
    · intro d hd
      simp only [hw, Bool.false_eq_true, if_false, Nat.add_zero] at hd
      rw [hbuf] at hd
      cases hd
      rw [← hq, List.take_left, hz]
      exact wp_pure ⟨by simp [answer], rfl, rfl⟩
    · intro u hu; simp only [hw, Bool.false_eq_true, if_false, Nat.add_zero] at hu; rw [hbuf] at hu; cases hu

theorem touch_live {c : Bool} (h : i.nfc = true ∨ i.present = true) : wp A (touch i c)
    (fun _ f' r' => f' = f ∧ ∃ t, r' = { r with lastTouch := t }) (fun _ _ _ => False) (fun _ _ => False) f r := by
  unfold touch
  wps
  all_goals first
    | exact ⟨rfl, _, rfl⟩
    | (rcases h with h | h <;> simp_all)

theorem rd0_template {d : Bytes} {l : List Item} (h : Template d l) : rd d 0 = .ok 0x7C ∧ d.length ≠ 0 := by
  obtain ⟨_, n, len, _, _, rfl⟩ := h
  exact ⟨rfl, by simp⟩

/-- The way to the cases, for a slot. -/
theorem slot_path {sl : Slot} {k : KeyMat} {m : Meta} {l : List Item} {t : Tlvs} {Q E X} (hi : i.c.p2 = slotId sl)
    (hk : HasKey f sl k m) (hp : keyType r.alg i.c.p1 = m.type) (hT : Template i.c.data l) (ht : PE.Ok (tlvs i.c.data) t)
    (htc : TouchGiven i m)
    (hw : ∀ lt, wp noFault (match caseOf t with
    | .sign p l => caseSign x i (.slot sl) m p l
    | .extReq => caseExtReq x i (.slot sl)
    | .extResp p l => caseExtResp x i (.slot sl) p l
    | .mutReq => caseMutReq x i (.slot sl)
    | .mutResp wp wl cp cl => caseMutResp x i (.slot sl) wp wl cp cl
    | .ecdh p l => caseEcdh x i (.slot sl) m p l
    | .invalid => do
      Cmd.mod authReset
      throw (.sw SW.wrongData)) Q E X f { r with lastTouch := lt }) :
    wp noFault (genAuth x i) Q E X f r := by
  obtain ⟨hkk, hmt⟩ := hk
  obtain ⟨h0, h0'⟩ := rd0_template hT
  unfold genAuth
  apply wp_ite <;> intro h
  · simp [Apdu.Capdu.lc, h0'] at h
  apply wp_bind
  apply wp_mem
  rotate_left
  · intro u hu; rw [h0] at hu; cases hu
  intro d hd
  rw [h0] at hd
  cases hd
  apply wp_ite <;> intro h
  · exact absurd h (by decide)
  rw [hi, refOf_slot]
  apply wp_ite <;> intro h
  · simp at h
  apply wp_bind
  apply wp_rdOr
  · intro m' hm'
    simp [metaOf, hkk] at hm'
    subst hm'
    apply wp_ite <;> intro h
    · exact absurd (by simpa using h) hmt
    apply wp_bind; apply wp_get
    apply wp_ite <;> intro h
    · simp [hp] at h
    apply wp_bind
    apply wp_parse'
    · intro t' ht'
      have : t' = t := by
        have h1 : (tlvs i.c.data).run = .ok (.ok t') := ht'
        have h2 : (tlvs i.c.data).run = .ok (.ok t) := ht
        rw [h1] at h2
        cases h2; rfl
      subst this
      apply wp_ite <;> intro h
      · apply wp_bind
        refine wp_mono (touch_live (htc (by simp at h; grind))) ?_ (fun _ _ _ h => h.elim) (fun _ _ h => h.elim)
        rintro _ f' r' ⟨rfl, lt, rfl⟩
        exact hw lt
      · exact hw r.lastTouch
    · intro sw h
      have h1 : (tlvs i.c.data).run = .ok (.ok t) := ht
      have h2 : (tlvs i.c.data).run = .ok (.error sw) := h
      rw [h1] at h2
      cases h2
    · intro u h
      have h1 : (tlvs i.c.data).run = .ok (.ok t) := ht
      have h2 : (tlvs i.c.data).run = .error u := h
      rw [h1] at h2
      cases h2
  · intro h; simp [metaOf, hkk] at h
  · intro h; cases h
  · intro h; cases h

end Verif.Piv
