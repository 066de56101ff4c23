import Verif.Spec.PivHand
import Verif.Lemmas.PivTpl
import Verif.Props.Piv
import Verif.Props.PivEx2
/-
C115: the handshake for the PIV management key follows a small machine.
-/
namespace Verif.Piv
open Cmd Verif.Spec.Piv Verif.KeyFile

variable {A : Fault → Prop} {x : Ext} {i : In} {f : Flash} {r r' : Ram}

/-- The variables of the applet show the state of the machine. -/
def Shows115 (r : Ram) (s : Hand) : Prop :=
  r.admin = s.rights ∧
  match s.pending with
  | .nothing => r.auth = .none
  | .answer v => r.auth = .external ∧ r.chal = v
  | .witness v => r.auth = .mutual ∧ r.chal = v

/-- The management key is there, is a 3DES key with the touch policy `t`, and encrypts. -/
def Keyed (x : Ext) (f : Flash) (enc : Bytes → Bytes) (t : Byte) : Prop :=
  ∃ k m, f.mgmt = some k ∧ k.info = some m ∧ m.type = .tdea ∧ m.touch = t ∧ ∀ v, x.cr.tdes k.key v = some (enc v)

theorem caseOf_ask {m : Bytes} {t : Tlvs} {l : List Item} {a : Ask} (h : Loc m ⟨none, none, none, none⟩ t l)
    (ha : Asks l a) :
    match a with
    | .challenge => caseOf t = .extReq
    | .answer v => ∃ p q, caseOf t = .extResp p.length v.length ∧ m = p ++ v ++ q
    | .witness => caseOf t = .mutReq
    | .confirm v c => ∃ p q p' q', caseOf t = .mutResp p.length v.length p'.length c.length ∧ m = p ++ v ++ q ∧
        m = p' ++ c ++ q' := by
  obtain ⟨hw, hc, hr, he⟩ := loc_points h
  obtain ⟨tw, tc, tr, te⟩ := t
  simp only at hw hc hr he
  cases a with
  | challenge =>
    have h1 : valueOf 0x81 l = some [] := ha
    rw [h1] at hc
    obtain ⟨p, q, rfl, _⟩ := points_some hc
    cases tw <;> rfl
  | answer v =>
    obtain ⟨h1, h2, h3⟩ := ha
    rw [h1] at hr
    obtain ⟨p, q, rfl, hm⟩ := points_some hr
    refine ⟨p, q, ?_, hm⟩
    cases v with
    | nil => exact absurd rfl h2
    | cons b v =>
      cases tc with
      | none => cases tw <;> rfl
      | some a =>
        obtain ⟨p', k⟩ := a
        obtain ⟨c, _, _, hv, hk, _⟩ := points_of_some hc
        cases c with
        | nil => exact absurd hv h3
        | cons c c' => subst hk; cases tw <;> rfl
  | witness =>
    obtain ⟨h1, h2, h3⟩ := ha
    rw [h1] at hw
    obtain ⟨p, q, rfl, hm⟩ := points_some hw
    have hr' : tr = none ∨ ∃ p, tr = some (p, 0) := by
      cases hv : valueOf 0x82 l with
      | none => rw [hv] at hr; exact .inl (points_none hr)
      | some v =>
        rw [hv] at hr h3
        obtain ⟨p, _, e, _⟩ := points_some hr
        have : v = [] := h3
        subst this
        exact .inr ⟨_, e⟩
    have hc' : tc = none ∨ ∃ p k, tc = some (p, k + 1) := by
      cases tc with
      | none => exact .inl rfl
      | some a =>
        obtain ⟨p', k⟩ := a
        obtain ⟨c, _, _, hv, hk, _⟩ := points_of_some hc
        cases c with
        | nil => exact absurd hv h2
        | cons c c' => subst hk; exact .inr ⟨_, _, rfl⟩
    rcases hr' with rfl | ⟨_, rfl⟩ <;> rcases hc' with rfl | ⟨_, _, rfl⟩ <;> rfl
  | confirm v c =>
    obtain ⟨h1, h2, h3, h4, h5⟩ := ha
    rw [h1] at hw
    rw [h3] at hc
    obtain ⟨p, q, rfl, hm⟩ := points_some hw
    obtain ⟨p', q', rfl, hm'⟩ := points_some hc
    have hr' : tr = none ∨ ∃ p, tr = some (p, 0) := by
      cases hv : valueOf 0x82 l with
      | none => rw [hv] at hr; exact .inl (points_none hr)
      | some v =>
        rw [hv] at hr h5
        obtain ⟨p, _, e, _⟩ := points_some hr
        have : v = [] := h5
        subst this
        exact .inr ⟨_, e⟩
    refine ⟨p, q, p', q', ?_, hm, hm'⟩
    cases v with
    | nil => exact absurd rfl h2
    | cons b v =>
      cases c with
      | nil => exact absurd rfl h4
      | cons b' c => rcases hr' with rfl | ⟨_, rfl⟩ <;> rfl

theorem rdRange_at {p v q : Bytes} {n : Nat} (h : v.length = n) : rdRange (p ++ v ++ q) p.length n = .ok v := by
  rw [rdRange_eq_ok]
  subst h
  simp

/-- Encryption with the management key. -/
theorem tdes115 {enc : Bytes → Bytes} {t : Byte} {v : Bytes} {e : Reply} (hA : ¬ A .fail) (hk : Keyed x f enc t)
    {Q : Bytes → Flash → Ram → Prop} {E X} (hX : A .cut → X f r) (hQ : Q (enc v) f r) :
    wp A (tdesOr x v e) Q E X f r := by
  obtain ⟨k, m, h1, h2, _, _, h3⟩ := hk
  unfold tdesOr
  apply wp_bind
  apply wp_rdOr
  · intro a _
    apply wp_bind
    apply wp_rdOr
    · intro b hb
      rw [h1] at hb; cases hb
      rw [h3]
      exact wp_pure hQ
    · intro h; rw [h1] at h; cases h
    · intro h; exact absurd h hA
    · exact hX
  · intro h; rw [h1] at h; simp [h2] at h
  · intro h; exact absurd h hA
  · exact hX

/-- How a request ends. -/
def End115 (f : Flash) (e : Hand × Bytes × Nat) (a : Reply) (f' : Flash) (r' : Ram) : Prop :=
  a = .resp e.2.1 e.2.2 ∧ f' = f ∧ Shows115 r' e.1

theorem touch115 {b : Bool} {Q : Unit → Flash → Ram → Prop} {E X} (h : i.nfc = true ∨ i.present = true)
    (hQ : ∀ t, Q () f { r with lastTouch := t }) : wp A (touch i b) Q E X f r := by
  unfold touch
  apply wp_ite <;> intro h1
  · exact wp_pure (hQ r.lastTouch)
  apply wp_bind; apply wp_get
  apply wp_ite <;> intro h2
  · exact wp_pure (hQ r.lastTouch)
  apply wp_ite <;> intro h3
  · rcases h with h | h
    · exact absurd h h1
    · rw [h] at h3; cases h3
  · exact wp_mod (hQ _)

/-- GENERAL AUTHENTICATE with the management key up to its cases. -/
theorem ga115 {enc : Bytes → Bytes} {tp : Byte} {t : Tlvs} {Q E X} (hA : ¬ A .fail) (hk : Keyed x f enc tp)
    (h0 : i.c.data[0]? = some 0x7C) (h1 : i.c.cla = 0) (h2 : i.c.ins = 0x87) (h3 : i.c.p1 = 0 ∨ i.c.p1 = 3)
    (h4 : i.c.p2 = 0x9B) (htc : tp = 2 ∨ tp = 3 → i.nfc = true ∨ i.present = true) (hT : PE.Ok (tlvs i.c.data) t)
    (hX : A .cut → ∀ r, X f r)
    (hw : ∀ r' m, r'.auth = r.auth → r'.chal = r.chal → r'.admin = r.admin → wp A (match caseOf t with
    | .sign p l => caseSign x i .adm m p l
    | .extReq => caseExtReq x i .adm
    | .extResp p l => caseExtResp x i .adm p l
    | .mutReq => caseMutReq x i .adm
    | .mutResp wp wl cp cl => caseMutResp x i .adm wp wl cp cl
    | .ecdh p l => caseEcdh x i .adm m p l
    | .invalid => do
      Cmd.mod authReset
      throw (.sw SW.wrongData)) Q E X f r') : wp A (process x i) Q E X f r := by
  obtain ⟨k, m, hm, hi, ht, rfl, _⟩ := hk
  apply process_ga h1 h2
  have hl : i.c.data ≠ [] := by intro e; rw [e] at h0; cases h0
  have hl' : i.c.lc ≠ 0 := by simpa [Apdu.Capdu.lc] using hl
  have hkt : ∀ a, keyType a i.c.p1 = .tdea := by rcases h3 with h | h <;> rw [h] <;> exact fun a => rfl
  have hk : refOf i.c.p2 = some .adm := by rw [h4]; rfl
  have hmeta : metaOf .adm f = some m := by simp [metaOf, hm, hi]
  unfold genAuth
  apply wp_ite <;> intro h
  · exact absurd (by simpa using h) hl'
  apply wp_bind
  apply wp_rd (by simp [Apdu.Capdu.lc] at hl' ⊢; exact Nat.pos_of_ne_zero (by simpa using hl'))
  intro v hv
  rw [h0] at hv; cases hv
  apply wp_ite <;> intro h
  · exact absurd h (by decide)
  rw [hk]
  apply wp_ite <;> intro h
  · rcases h3 with h' | h' <;> rw [h'] at h <;> exact absurd h (by decide)
  apply wp_bind
  apply wp_rdOr
  · intro m' hm'
    rw [hmeta] at hm'; cases hm'
    apply wp_ite <;> intro h
    · rw [ht] at h; exact absurd h (by decide)
    apply wp_bind; apply wp_get
    apply wp_ite <;> intro h
    · rw [hkt, ht] at h; exact absurd h (by decide)
    apply wp_bind
    apply wp_parse'
    · intro t' ht'
      have : t' = t := by
        have e : (tlvs i.c.data).run = .ok (.ok t) := hT
        rw [e] at ht'; cases ht'; rfl
      subst this
      apply wp_ite <;> intro h
      · apply wp_bind
        apply touch115
        · apply htc
          simp only [Bool.or_eq_true, beq_iff_eq] at h
          exact h.symm
        · exact fun t => hw _ _ rfl rfl rfl
      · exact hw _ _ rfl rfl rfl
    · intro sw h
      have e : (tlvs i.c.data).run = .ok (.ok t) := hT
      rw [e] at h; cases h
    · intro sw h
      have e : (tlvs i.c.data).run = .ok (.ok t) := hT
      rw [e] at h; cases h
  · intro h; rw [hmeta] at h; cases h
  · intro h; exact absurd h hA
  · intro h; exact hX h _

theorem ask_wp {enc : Bytes → Bytes} {tp : Byte} {a : Ask} {s : Hand} (hx : x.Ok) (hA : ¬ A .fail)
    (hk : Keyed x f enc tp) (hi : IsAsk i a) (htc : tp = 2 ∨ tp = 3 → i.nfc = true ∨ i.present = true)
    (hs : Shows115 r s) :
    wp A (process x i) (End115 f (s.ask enc (rnd8 i) a)) (End115 f (s.ask enc (rnd8 i) a))
      (fun f' _ => f' = f ∧ A .cut) f r := by
  obtain ⟨h1, h2, h3, h4, l, hl, ha⟩ := hi
  obtain ⟨t, ht, hloc⟩ := tlvs_run hl
  have h0 : i.c.data[0]? = some 0x7C := by
    obtain ⟨_, n, len, _, _, e⟩ := hl
    rw [e]; rfl
  refine ga115 hA hk h0 h1 h2 h3 h4 htc ht (fun h _ => ⟨rfl, h⟩) ?_
  intro r1 m ea ec eadm
  have hs : Shows115 r1 s := by
    unfold Shows115 at hs ⊢
    rw [ea, ec, eadm]; exact hs
  have hc := caseOf_ask hloc ha
  clear ea ec eadm ht hloc
  cases a with
  | challenge =>
    simp only at hc
    rw [hc]
    show wp A (caseExtReq x i .adm) _ _ _ _ _
    unfold caseExtReq
    apply wp_bind; apply wp_mod
    apply wp_ite <;> intro h
    · exact absurd h (by decide)
    apply wp_bind; apply wp_mod
    apply wp_bind
    apply tdes115 hA hk (fun h => ⟨rfl, h⟩)
    apply wp_bind; apply wp_mod
    exact wp_pure ⟨rfl, rfl, rfl, rfl, rfl⟩
  | witness =>
    simp only at hc
    rw [hc]
    show wp A (caseMutReq x i .adm) _ _ _ _ _
    unfold caseMutReq
    apply wp_bind; apply wp_mod
    apply wp_ite <;> intro h
    · exact absurd h (by decide)
    apply wp_bind; apply wp_mod
    apply wp_bind
    apply tdes115 hA hk (fun h => ⟨rfl, h⟩)
    exact wp_pure ⟨rfl, rfl, rfl, rfl, rfl⟩
  | answer v =>
    obtain ⟨p, q, hc, hm⟩ := hc
    rw [hc]
    show wp A (caseExtResp x i .adm p.length v.length) _ _ _ _ _
    have wrong : ¬ (v.length = 8 ∧ s.pending = .answer v) →
        End115 f (s.ask enc (rnd8 i) (.answer v)) (.sw SW.security) f (authReset r1) := by
      intro hn
      have e : s.ask enc (rnd8 i) (.answer v) = (⟨.nothing, s.rights⟩, [], 0x6982) := if_neg hn
      rw [e]
      exact ⟨rfl, rfl, hs.1, rfl⟩
    unfold caseExtResp
    apply wp_bind; apply wp_get
    apply wp_ite <;> intro h
    · refine wp_bind (wp_pure (wp_bind (wp_mod (wp_throw (wrong ?_)))))
      rintro ⟨hl8, hp⟩
      have hs2 := hs.2
      rw [hp] at hs2
      rw [hs2.1, hl8] at h
      exact absurd h (by decide)
    · simp only [Bool.or_eq_true, bne_iff_ne, ne_eq, not_or, Decidable.not_not] at h
      obtain ⟨⟨g1, _⟩, g3⟩ := h
      apply wp_bind
      have e : rdRange i.c.data p.length 8 = .ok v := by rw [hm]; exact rdRange_at g3
      rw [e]
      refine wp_pure (wp_bind (wp_pure ?_))
      apply wp_ite <;> intro h
      · refine wp_bind (wp_mod (wp_throw (wrong ?_)))
        rintro ⟨_, hp⟩
        have hs2 := hs.2
        rw [hp] at hs2
        have : (!differs x r1.chal v) = true := (differs_iff hx).2 hs2.2
        simp only [this] at h
        exact absurd h (by decide)
      · have hv : r1.chal = v := (differs_iff hx).1 (by simpa using h)
        have hp : s.pending = .answer v := by
          have hs2 := hs.2
          cases hq : s.pending with
          | nothing => rw [hq] at hs2; rw [hs2] at g1; cases g1
          | answer w => rw [hq] at hs2; rw [← hv, hs2.2]
          | witness w => rw [hq] at hs2; rw [hs2.1] at g1; cases g1
        have e : s.ask enc (rnd8 i) (.answer v) = (⟨.nothing, true⟩, [], 0x9000) := if_pos ⟨g3, hp⟩
        rw [e]
        apply wp_bind; apply wp_mod
        exact wp_pure ⟨rfl, rfl, rfl, rfl⟩
  | confirm v c =>
    obtain ⟨p, q, p', q', hc, hm, hm'⟩ := hc
    rw [hc]
    show wp A (caseMutResp x i .adm p.length v.length p'.length c.length) _ _ _ _ _
    have wrong : ¬ (v.length = 8 ∧ s.pending = .witness v) →
        End115 f (s.ask enc (rnd8 i) (.confirm v c)) (.sw SW.security) f (authReset r1) := by
      intro hn
      have e : s.ask enc (rnd8 i) (.confirm v c) = (⟨.nothing, s.rights⟩, [], 0x6982) := if_neg hn
      rw [e]
      exact ⟨rfl, rfl, hs.1, rfl⟩
    unfold caseMutResp
    apply wp_bind; apply wp_get
    apply wp_ite <;> intro h
    · refine wp_bind (wp_pure (wp_bind (wp_mod (wp_throw (wrong ?_)))))
      rintro ⟨hl8, hp⟩
      have hs2 := hs.2
      rw [hp] at hs2
      rw [hs2.1, hl8] at h
      exact absurd h (by decide)
    · simp only [Bool.or_eq_true, bne_iff_ne, ne_eq, not_or, Decidable.not_not] at h
      obtain ⟨⟨g1, _⟩, g3⟩ := h
      apply wp_bind
      have e : rdRange i.c.data p.length 8 = .ok v := by rw [hm]; exact rdRange_at g3
      rw [e]
      refine wp_pure (wp_bind (wp_pure ?_))
      apply wp_ite <;> intro h
      · refine wp_bind (wp_mod (wp_throw (wrong ?_)))
        rintro ⟨_, hp⟩
        have hs2 := hs.2
        rw [hp] at hs2
        have : (!differs x r1.chal v) = true := (differs_iff hx).2 hs2.2
        simp only [this] at h
        exact absurd h (by decide)
      · have hv : r1.chal = v := (differs_iff hx).1 (by simpa using h)
        have hp : s.pending = .witness v := by
          have hs2 := hs.2
          cases hq : s.pending with
          | nothing => rw [hq] at hs2; rw [hs2] at g1; cases g1
          | answer w => rw [hq] at hs2; rw [hs2.1] at g1; cases g1
          | witness w => rw [hq] at hs2; rw [← hv, hs2.2]
        have e : s.ask enc (rnd8 i) (.confirm v c) =
            if c.length = 8 then (⟨.nothing, true⟩, [0x7C, 0x0A, 0x82, 0x08] ++ enc c, 0x9000)
            else (⟨.nothing, s.rights⟩, [], 0x6700) := if_pos ⟨g3, hp⟩
        rw [e]
        apply wp_ite <;> intro h8
        · have h8 : ¬ c.length = 8 := by simpa using h8
          rw [if_neg h8]
          exact wp_bind (wp_mod (wp_throw ⟨rfl, rfl, hs.1, rfl⟩))
        · have h8 : c.length = 8 := by simpa using h8
          rw [if_pos h8]
          have e : rdRange i.c.data p'.length 8 = .ok c := by rw [hm']; exact rdRange_at h8
          rw [e]
          refine wp_bind (wp_pure ?_)
          apply wp_bind
          apply tdes115 hA hk (fun h => ⟨rfl, h⟩)
          apply wp_bind; apply wp_mod
          exact wp_pure ⟨rfl, rfl, rfl, rfl⟩

/-- The three variables of the handshake. -/
def SameHand (r r' : Ram) : Prop := r'.auth = r.auth ∧ r'.chal = r.chal ∧ r'.admin = r.admin

theorem SameHand.shows {s : Hand} (h : SameHand r r') (hs : Shows115 r s) : Shows115 r' s := by
  unfold Shows115 at hs ⊢
  rw [h.1, h.2.1, h.2.2]; exact hs

theorem chk_same {w : Which} {data : Bytes} {o : Option Reply} {f' : Flash} (h : ChkEff A w data f r o f' r') :
    SameHand r r' := by
  cases h <;> cases w <;> exact ⟨rfl, rfl, rfl⟩

theorem vtu_same {w w' : Which} {data : Bytes} {o : Option Reply} {f' : Flash}
    (h : VtuEff A w w' data f r o f' r') : SameHand r r' := by
  cases h with
  | chk _ _ _ h => exact chk_same h
  | updIo _ _ h => have := chk_same h; cases w' <;> exact this
  | ok _ _ h => have := chk_same h; cases w' <;> exact this

/-- A command other than GENERAL AUTHENTICATE, SELECT, SET MANAGEMENT KEY and RESET. -/
theorem quiet115 {a : Reply} {f' : Flash} (hq : QuietIns i) (h : PEff A x i f r (.done a) f' r') :
    SameHand r r' ∧ f'.mgmt = f.mgmt := by
  obtain ⟨h1, h2, h3, h4⟩ := hq
  have hp : SameHand r (pre i.c r) := ⟨rfl, rfl, rfl⟩
  have tr : ∀ {r1 : Ram}, SameHand (pre i.c r) r1 → SameHand r r1 := fun h => h
  cases h with
  | cla => exact ⟨⟨rfl, rfl, rfl⟩, rfl⟩
  | sel h => exact absurd h h2
  | get _ _ _ he =>
    cases he with
    | bad | disc => exact ⟨hp, rfl⟩
    | first _ _ _ _ _ _ _ hr =>
      rcases hr with ⟨rfl, _⟩ | ⟨rfl, _⟩ <;> exact ⟨⟨rfl, rfl, rfl⟩, rfl⟩
    | next _ _ _ _ _ _ _ _ _ _ hr =>
      rcases hr with rfl | rfl <;> exact ⟨⟨rfl, rfl, rfl⟩, rfl⟩
  | verify _ _ _ _ he =>
    cases he with
    | bad | query | queryNo => exact ⟨hp, rfl⟩
    | logout => exact ⟨⟨rfl, rfl, rfl⟩, rfl⟩
    | chk _ _ _ _ _ _ h => exact ⟨tr (chk_same h), (chk_pinOnly h).mgmt⟩
    | right _ r1 _ _ _ h =>
      have := tr (chk_same h)
      exact ⟨⟨this.1, this.2.1, this.2.2⟩, (chk_pinOnly h).mgmt⟩
  | chg _ _ _ _ he =>
    cases he with
    | bad => exact ⟨hp, rfl⟩
    | fail _ _ _ _ _ _ _ h => exact ⟨tr (vtu_same h), (vtu_pinOnly h).mgmt⟩
    | flagIo _ _ _ _ _ _ h => exact ⟨tr (vtu_same h), (vtu_pinOnly h).mgmt⟩
    | done _ _ _ _ _ _ _ h hf => exact ⟨tr (vtu_same h), (setDflt_pinOnly hf).mgmt.trans (vtu_pinOnly h).mgmt⟩
  | rrc _ _ _ _ he =>
    cases he with
    | bad => exact ⟨hp, rfl⟩
    | fail _ _ _ _ _ _ h => exact ⟨tr (vtu_same h), (vtu_pinOnly h).mgmt⟩
    | done _ _ _ _ _ h => exact ⟨tr (vtu_same h), (vtu_pinOnly h).mgmt⟩
  | ga h => exact absurd h h1
  | put _ _ _ _ he =>
    cases he with
    | no | bad => exact ⟨hp, rfl⟩
    | over | appIo => exact ⟨⟨rfl, rfl, rfl⟩, rfl⟩
    | app _ _ _ _ _ _ _ hr => subst hr; split <;> exact ⟨⟨rfl, rfl, rfl⟩, rfl⟩
    | first _ _ _ _ _ _ _ _ _ hr => subst hr; split <;> exact ⟨⟨rfl, rfl, rfl⟩, rfl⟩
  | adm _ _ _ _ he =>
    cases he with
    | bad => exact ⟨hp, rfl⟩
    | done _ _ _ _ hm => exact ⟨⟨rfl, rfl, rfl⟩, hm⟩
  | set h => exact absurd h h3
  | reset h => exact absurd h h4
  | info => exact ⟨hp, rfl⟩

theorem bad_cut (h : Bad .cut) : False := by
  rcases h with ⟨u, h⟩ | ⟨sw, _, h⟩ <;> cases h

/-- Without faults, a command is answered. -/
theorem noCut115 {f' : Flash} (h : PEff noFault x i f r .cut f' r') : False := by
  have nc : ¬ noFault .cut := fun h => by cases h
  cases h with
  | sel _ _ _ he => cases he with | bad _ h => exact bad_cut h
  | get _ _ _ he =>
    cases he with
    | bad _ h => exact bad_cut h
    | cut h => exact nc h
  | verify _ _ _ _ he =>
    cases he with
    | bad _ h => exact bad_cut h
    | cut h => exact nc h
  | chg _ _ _ _ he =>
    cases he with
    | bad _ h => exact bad_cut h
    | cut h => exact nc h
  | rrc _ _ _ _ he =>
    cases he with
    | bad _ h => exact bad_cut h
    | cut h => exact nc h
  | ga _ _ _ he =>
    cases he with
    | bad _ h => exact bad_cut h
    | cut h => exact nc h
    | run =>
      rename_i h
      cases h with
      | cut h => exact nc h
      | fail _ ho => obtain ⟨_, h, _⟩ := ho; cases h
  | put _ _ _ _ he =>
    cases he with
    | bad _ _ h => exact bad_cut h
    | cut h => exact nc h
  | adm _ _ _ _ he =>
    cases he with
    | bad _ h => exact bad_cut h
    | cut h => exact nc h
  | set _ _ _ he =>
    cases he with
    | bad _ h => exact bad_cut h
    | cut h => exact nc h
  | reset _ _ _ _ he =>
    cases he with
    | bad _ h => exact bad_cut h
    | cut h => exact nc h
  | cut h => exact nc h

theorem Keyed.keep {enc : Bytes → Bytes} {t : Byte} {f' : Flash} (h : Keyed x f enc t) (e : f'.mgmt = f.mgmt) :
    Keyed x f' enc t := by
  unfold Keyed
  rw [e]; exact h

/-- **C115.** Every request of the handshake, in any encoding of the template, is answered as the machine says, and
leads to its next state; nothing is written. If power is cut, the variables are lost. -/
theorem C115_request {enc : Bytes → Bytes} {t : Byte} {a : Ask} {s : Hand} {env : Env} (hx : x.Ok)
    (hk : Keyed x f enc t) (hi : IsAsk i a) (ht : t = 2 ∨ t = 3 → i.nfc = true ∨ i.present = true)
    (hs : Shows115 r s) (he : env.all cutsOnly) :
    step x ⟨f, some r⟩ (.apdu i) env = (⟨f, none⟩, .cut) ∨
    ∃ r', step x ⟨f, some r⟩ (.apdu i) env =
        (⟨f, some r'⟩, .reply (.resp (s.ask enc (rnd8 i) a).2.1 (s.ask enc (rnd8 i) a).2.2)) ∧
      Shows115 r' (s.ask enc (rnd8 i) a).1 := by
  show exec (process x i) f r env = _ ∨ ∃ r', exec (process x i) f r env = _ ∧ _
  rcases exec_of_wp (P := fun o f' r' => match o with
    | .cut => f' = f ∧ cutsOnly .cut
    | .done b => End115 f (s.ask enc (rnd8 i) a) b f' r')
    (wp_mono (ask_wp hx (A := cutsOnly) (fun h => h rfl) hk hi ht hs) (fun _ _ _ h => h) (fun _ _ _ h => h)
      (fun _ _ h => h)) he with
    ⟨f', r', e, h⟩ | ⟨f', r', b, e, rfl, rfl, h⟩
  · rw [e, h.1]; exact .inl rfl
  · rw [e]; exact .inr ⟨r', rfl, h⟩

/-- **C115.** The other commands, whatever they are answered, leave the handshake and the management key alone. -/
theorem C115_quiet {enc : Bytes → Bytes} {t : Byte} {s : Hand} {env : Env} (hx : x.Ok) (hk : Keyed x f enc t)
    (hi : QuietIns i) (hs : Shows115 r s) (he : env.all noFault) :
    ∃ f' r' a, step x ⟨f, some r⟩ (.apdu i) env = (⟨f', some r'⟩, .reply a) ∧ Shows115 r' s ∧ Keyed x f' enc t := by
  show ∃ f' r' a, exec (process x i) f r env = _ ∧ _
  rcases exec_of_wp (P := fun o f' r' => PEff noFault x i f r o f' r') (process_wp hx) he with
    ⟨f', r', e, h⟩ | ⟨f', r', a, e, h⟩
  · have hcut := noCut115 h
    exact hcut.elim
  · obtain ⟨h1, h2⟩ := quiet115 hi h
    exact ⟨f', r', a, e, h1.shows hs, hk.keep h2⟩

/-- **C115.** SET MANAGEMENT KEY leaves the handshake alone; a change of the key counts from the next challenge. -/
theorem C115_rekey {s : Hand} {env : Env} (hx : x.Ok) (hi : i.c.ins = 0xFF) (hs : Shows115 r s) (he : env.all noFault) :
    ∃ f' r' a, step x ⟨f, some r⟩ (.apdu i) env = (⟨f', some r'⟩, .reply a) ∧ Shows115 r' s := by
  show ∃ f' r' a, exec (process x i) f r env = _ ∧ _
  rcases exec_of_wp (P := fun o f' r' => PEff noFault x i f r o f' r') (process_wp hx) he with
    ⟨f', r', e, h⟩ | ⟨f', r', a, e, h⟩
  · exact (noCut115 h).elim
  · refine ⟨f', r', a, e, ?_⟩
    cases h with
    | cla => exact hs
    | set => exact SameHand.shows ⟨rfl, rfl, rfl⟩ hs
    | get h => rw [hi] at h; exact absurd h (by decide)
    | adm h => rw [hi] at h; exact absurd h (by decide)
    | info h => rw [hi] at h; exact absurd h (by decide)
    | sel h | verify h | chg h | rrc h | ga h | put h | reset h => rw [hi] at h; exact absurd h (by decide)

/-- **C115.** SELECT ends the handshake and the rights; the selection of another applet ends the rights. -/
theorem C115_end {s : Hand} {env : Env} (hi : i.c.cla = 0 ∧ i.c.ins = 0xA4 ∧ i.c.p1 = 4 ∧ i.c.p2 = 0)
    (hs : Shows115 r s) :
    (∃ r' d, step x ⟨f, some r⟩ (.apdu i) env = (⟨f, some r'⟩, .reply (.resp d 0x9000)) ∧
      Shows115 r' ⟨.nothing, false⟩) ∧
    ∃ r', step x ⟨f, some r⟩ .deselect env = (⟨f, some r'⟩, .none) ∧ Shows115 r' ⟨s.pending, false⟩ := by
  obtain ⟨h1, h2, h3, h4⟩ := hi
  refine ⟨?_, _, rfl, rfl, hs.2⟩
  show ∃ r' d, exec (process x i) f r env = _ ∧ _
  rcases exec_of_wp (A := anyFault) (P := fun o f' r' => match o with
    | .cut => False
    | .done a => f' = f ∧ (∃ d, a = .resp d 0x9000) ∧ Shows115 r' ⟨.nothing, false⟩) (m := process x i) (f := f) (r := r)
    (by
      unfold process
      apply wp_ite <;> intro h
      · rw [h1] at h; simp at h
      have e : dispatch x i = select i.c := by simp [dispatch, h2]
      rw [e]
      apply wp_ite <;> intro h
      · apply wp_bind; apply wp_mod
        apply wp_ite <;> intro h
        · apply wp_bind; apply wp_mod
          unfold select
          apply wp_ite <;> intro h
          · rw [h3, h4] at h; exact absurd h (by decide)
          apply wp_bind; apply wp_mod
          exact wp_pure ⟨rfl, ⟨_, rfl⟩, rfl, rfl⟩
        · rw [h2] at h; exact absurd h (by decide)
      · rw [h2] at h; exact absurd h (by decide)) (env := env) (fun _ => trivial) with
    ⟨f', r', e, h⟩ | ⟨f', r', a, e, rfl, ⟨d, rfl⟩, h⟩
  · exact h.elim
  · exact ⟨r', d, e, h⟩

/-- What the device answered to the requests of a history. -/
def sends (x : Ext) : St → List (Sent × Env) → St × List (Option Out)
  | s, [] => (s, [])
  | s, (c, env) :: h =>
    let e := step x s (.apdu c.inp) env
    let z := sends x e.1 h
    (z.1, (match c with
      | .ask .. => some e.2
      | .other _ => none) :: z.2)

/-- **C115.** For every history of requests and other commands, the answers to the requests are those of the machine,
and so is the state at the end. -/
theorem C115_history {enc : Bytes → Bytes} {t : Byte} (hx : x.Ok) :
    ∀ (h : List (Sent × Env)) (f : Flash) (r : Ram) (s : Hand), Keyed x f enc t → Shows115 r s →
    (∀ c ∈ h, c.1.Made t ∧ c.2.all noFault) →
    ∃ f' r', (sends x ⟨f, some r⟩ h).1 = ⟨f', some r'⟩ ∧ Keyed x f' enc t ∧
      Shows115 r' (s.runs enc (h.map (·.1))).1 ∧
      (sends x ⟨f, some r⟩ h).2 =
        (s.runs enc (h.map (·.1))).2.map (Option.map fun e => Out.reply (.resp e.1 e.2)) := by
  intro h
  induction h with
  | nil => intro f r s hk hs _; exact ⟨f, r, rfl, hk, hs, rfl⟩
  | cons e h ih =>
    obtain ⟨c, env⟩ := e
    intro f r s hk hs hh
    obtain ⟨hm, he⟩ := hh _ (List.mem_cons_self ..)
    have hh' := fun c hc => hh c (List.mem_cons_of_mem _ hc)
    cases c with
    | ask i a =>
      obtain ⟨hi, ht⟩ := hm
      rcases exec_of_wp (P := fun o f' r' => match o with
        | .cut => f' = f ∧ noFault .cut
        | .done b => End115 f (s.ask enc (rnd8 i) a) b f' r')
        (wp_mono (ask_wp hx (A := noFault) (fun h => by cases h) hk hi ht hs) (fun _ _ _ h => h) (fun _ _ _ h => h)
          (fun _ _ h => h)) he with
        ⟨f', r', _, _, h'⟩ | ⟨f', r', b, e, rfl, rfl, h'⟩
      · cases h'
      · obtain ⟨f2, r2, g1, g2, g3, g4⟩ := ih f' r' _ hk h' hh'
        have e' : step x ⟨f', some r⟩ (.apdu (Sent.ask i a).inp) env =
            (⟨f', some r'⟩, .reply (.resp (s.ask enc (rnd8 i) a).2.1 (s.ask enc (rnd8 i) a).2.2)) := e
        refine ⟨f2, r2, ?_, g2, g3, ?_⟩
        · show (sends x (step x ⟨f', some r⟩ (.apdu (Sent.ask i a).inp) env).1 h).1 = _
          rw [e']; exact g1
        · show some (step x ⟨f', some r⟩ (.apdu (Sent.ask i a).inp) env).2 ::
            (sends x (step x ⟨f', some r⟩ (.apdu (Sent.ask i a).inp) env).1 h).2 = _
          rw [e']
          show _ :: (sends x ⟨f', some r'⟩ h).2 = _
          rw [g4]
          rfl
    | other i =>
      obtain ⟨f', r', a, e, h1, h2⟩ := C115_quiet hx hk hm hs he
      obtain ⟨f2, r2, g1, g2, g3, g4⟩ := ih f' r' s h2 h1 hh'
      have e' : step x ⟨f, some r⟩ (.apdu (Sent.other i).inp) env = (⟨f', some r'⟩, .reply a) := e
      refine ⟨f2, r2, ?_, g2, g3, ?_⟩
      · show (sends x (step x ⟨f, some r⟩ (.apdu (Sent.other i).inp) env).1 h).1 = _
        rw [e']; exact g1
      · show none :: (sends x (step x ⟨f, some r⟩ (.apdu (Sent.other i).inp) env).1 h).2 = _
        rw [e']
        show _ :: (sends x ⟨f', some r'⟩ h).2 = _
        rw [g4]
        rfl

/-- **C115.** One try for each challenge: after a wrong answer, every further answer is refused, the right one
included, until a new challenge is asked for. -/
theorem C115_one_try {enc : Bytes → Bytes} (s : Hand) (h : s.pending = .nothing) (hr : s.rights = false) :
    ∀ l : List Sent, (∀ c ∈ l, ∀ i, c ≠ .ask i .challenge ∧ c ≠ .ask i .witness) →
      (s.runs enc l).1 = s ∧ ∀ o ∈ (s.runs enc l).2, o = none ∨ o = some ([], 0x6982) := by
  intro l
  induction l with
  | nil => exact fun _ => ⟨rfl, fun _ h => by cases h⟩
  | cons c l ih =>
    intro hl
    obtain ⟨h1, h2⟩ := ih fun c hc => hl c (List.mem_cons_of_mem _ hc)
    have hc := hl c (List.mem_cons_self ..)
    obtain ⟨p, b⟩ := s
    simp only at h hr
    subst h; subst hr
    cases c with
    | other i =>
      refine ⟨h1, fun o ho => ?_⟩
      rcases List.mem_cons.1 ho with rfl | ho
      · exact .inl rfl
      · exact h2 o ho
    | ask i a =>
      have key : Hand.ask enc ((List.range 8).map i.rnd) ⟨.nothing, false⟩ a = (⟨.nothing, false⟩, [], 0x6982) := by
        cases a with
        | challenge => exact absurd rfl (hc i).1
        | witness => exact absurd rfl (hc i).2
        | answer v => exact if_neg (by rintro ⟨_, h⟩; cases h)
        | confirm v c => exact if_neg (by rintro ⟨_, h⟩; cases h)
      unfold Hand.runs
      rw [key]
      refine ⟨h1, fun o ho => ?_⟩
      rcases List.mem_cons.1 ho with rfl | ho
      · exact .inr rfl
      · exact h2 o ho

/-- **C115.** When power comes on, nothing is pending and there are no rights. -/
theorem C115_boot {rnd : Nat → Byte} {o : Option Ram} {env : Env} (hx : x.Ok) (he : env.all cutsOnly) :
    ∀ r', (step x ⟨f, o⟩ (.boot rnd) env).1.ram = some r' → Shows115 r' ⟨.nothing, false⟩ := by
  have h := step_eff hx ⟨f, o⟩ (.boot rnd) he
  generalize (step x ⟨f, o⟩ (.boot rnd) env).1 = s' at h ⊢
  generalize (step x ⟨f, o⟩ (.boot rnd) env).2 = o at h ⊢
  intro r' hr
  cases h with
  | off _ _ h => exact absurd rfl (h rnd)
  | boot _ _ _ _ _ r1 h =>
    cases hr
    obtain ⟨a, e⟩ := h.ram
    rw [e]
    exact ⟨rfl, rfl⟩
  | bootCut => cases hr

/-! ### A concrete case -/

namespace Ex

def chalI : In := inp 0x87 3 0x9B [0x7C, 2, 0x81, 0]
def respI (v : Bytes) : In := inp 0x87 0 0x9B ([0x7C, 0x0B, 0x82, 0x81, 8] ++ v)
def witI : In := inp 0x87 3 0x9B [0x7C, 2, 0x80, 0]
def confI (v c : Bytes) : In := inp 0x87 3 0x9B ([0x7C, 22, 0x80, 8] ++ v ++ [0x81, 8] ++ c ++ [0x82, 0])

example : IsAsk chalI .challenge :=
  ⟨rfl, rfl, .inr rfl, rfl, [⟨0x81, [0], []⟩], ⟨by
    intro t ht
    cases List.mem_singleton.1 ht
    exact ⟨by decide, .one 0 (by decide)⟩, 2, [2], .one 2 (by decide), by decide, rfl⟩, rfl⟩

example : IsAsk (respI [2, 3, 4, 5, 6, 7, 8, 9]) (.answer [2, 3, 4, 5, 6, 7, 8, 9]) :=
  ⟨rfl, rfl, .inl rfl, rfl, [⟨0x82, [0x81, 8], [2, 3, 4, 5, 6, 7, 8, 9]⟩], ⟨by
    intro t ht
    cases List.mem_singleton.1 ht
    exact ⟨by decide, .two 8 (by decide)⟩, 11, [11], .one 11 (by decide), by decide, rfl⟩, rfl, by decide, by decide⟩

/-- The key of the factory. -/
example : ∃ t, Keyed Ex.x (factory rnd none) (List.map (· + 1)) t := ⟨_, _, _, rfl, rfl, rfl, rfl, fun v => by simp [Ex.x, cr, tdes]⟩

example : Shows115 Ram.init ⟨.nothing, false⟩ := ⟨rfl, rfl⟩

/-- A challenge, a wrong answer, the right answer (too late), a witness, GET VERSION, and the witness returned. -/
example : outs fresh (good ([.boot rnd] ++ [chalI, respI [2, 3, 4, 5, 6, 7, 8, 8], respI [2, 3, 4, 5, 6, 7, 8, 9], witI,
      inp 0xFD 0 0 [], confI [1, 2, 3, 4, 5, 6, 7, 8] [9, 9, 9, 9, 9, 9, 9, 9]].map .apdu ++ [put])) =
    [.reply (.sw 0x9000), .reply (.resp [0x7C, 0x0A, 0x81, 8, 1, 2, 3, 4, 5, 6, 7, 8] 0x9000), .reply (.sw 0x6982),
     .reply (.sw 0x6982), .reply (.resp [0x7C, 0x0A, 0x80, 8, 2, 3, 4, 5, 6, 7, 8, 9] 0x9000),
     .reply (.resp [5, 7, 0] 0x9000), .reply (.resp [0x7C, 0x0A, 0x82, 8, 10, 10, 10, 10, 10, 10, 10, 10] 0x9000),
     .reply (.sw 0x9000)] := by decide +kernel

/-- The machine says the same. -/
example : (Hand.runs (List.map (· + 1)) ⟨.nothing, false⟩ [.ask chalI .challenge, .ask (respI []) (.answer [2, 3, 4, 5, 6, 7, 8, 8]),
      .ask (respI []) (.answer [2, 3, 4, 5, 6, 7, 8, 9]), .ask witI .witness, .other (inp 0xFD 0 0 []),
      .ask (confI [] []) (.confirm [1, 2, 3, 4, 5, 6, 7, 8] [9, 9, 9, 9, 9, 9, 9, 9])]) =
    (⟨.nothing, true⟩, [some ([0x7C, 0x0A, 0x81, 8, 1, 2, 3, 4, 5, 6, 7, 8], 0x9000), some ([], 0x6982), some ([], 0x6982),
      some ([0x7C, 0x0A, 0x80, 8, 2, 3, 4, 5, 6, 7, 8, 9], 0x9000), none,
      some ([0x7C, 0x0A, 0x82, 8, 10, 10, 10, 10, 10, 10, 10, 10], 0x9000)]) := by decide +kernel

end Ex
end Verif.Piv
