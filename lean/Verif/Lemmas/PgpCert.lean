import Verif.Lemmas.PgpOcc
/-
The state machine of the certificates of the OpenPGP applet.
-/
set_option linter.unusedSimpArgs false
namespace Verif.Pgp
open Cmd Verif.Spec.Pgp Verif.Spec.PgpData Verif.Spec.PgpCert Verif.KeyFile

variable {A : Fault → Prop} {x : Ext} {i : In} {f f' : Flash} {r r' : Ram} {o : Outcome Reply}

/-! ### One command -/

/-- What a command does to the state machine and to the certificates. -/
inductive TrkEff (i : In) (f : Flash) (r : Ram) : Outcome Reply → Flash → Ram → Prop
  | same (h : i.c.cla ≠ 0 ∨ i.c.ins = 0xCC) (sw : SW) (hs : sw ≠ 0x9000) : TrkEff i f r (.done (.sw sw)) f r
  | cut (f' : Flash) (r' : Ram) (h : i.c.ins = 0xDA → tagOf i.c = 0x7F21 → f' = f) : TrkEff i f r .cut f' r'
  | gate (hc : i.c.cla = 0) (r0 : Ram) (ht : track i.c r = some r0) (sw : SW) (hs : sw ≠ 0x9000)
      (hg : sw = 0x6900 ∨ termOf f = some 1) : TrkEff i f r (.done (.sw sw)) f r0
  | sel (hc : i.c.cla = 0) (hi : i.c.ins = 0xA5) (ht : termOf f ≠ some 1) (sw : SW) (r' : Ram) (hs : r'.state = .selectData)
      (ho : sw = 0x9000 ∧ r'.occ = i.c.p1 ∧ i.c.p1 ≤ 2 ∨ sw ≠ 0x9000 ∧ r'.occ = 0) : TrkEff i f r (.done (.sw sw)) f r'
  | next (hc : i.c.cla = 0) (hi : i.c.ins = 0xCC) (ht : termOf f ≠ some 1) (hr : r.state = .getCert) (a : Reply) (r' : Ram)
      (hs : r'.state = .getCert)
      (ho : (∀ d, a ≠ .resp d 0x9000) ∨
        ∃ k d, certOf (r.occ + 1) = some k ∧ k ≠ .sig ∧ r'.occ = r.occ + 1 ∧ f.certs k = some d ∧ a = .resp (d.take 0x480) 0x9000) :
      TrkEff i f r (.done a) f r'
  | put (hc : i.c.cla = 0) (hi : i.c.ins = 0xDA) (hg : tagOf i.c = 0x7F21) (r0 : Ram) (ht : track i.c r = some r0) (a : Reply)
      (f' : Flash) (r' : Ram) (hs : r'.state = r0.state)
      (ho : (∀ d, a ≠ .resp d 0x9000) ∧ r'.occ = r0.occ ∧ f' = f ∨
        ∃ k, certOf r0.occ = some k ∧ r'.occ = 0 ∧ f' = f.setCert k i.c.data ∧ i.c.data.length ≤ 0x480 ∧ a = .sw 0x9000) :
      TrkEff i f r (.done a) f' r'
  | other (hc : i.c.cla = 0) (h1 : i.c.ins ≠ 0xA5) (h2 : i.c.ins ≠ 0xCC) (h4 : i.c.ins = 0xDA → tagOf i.c ≠ 0x7F21) (r0 : Ram)
      (ht : track i.c r = some r0) (a : Reply) (f' : Flash) (r' : Ram) (ho : r'.occ = r0.occ)
      (hs : r'.state = r0.state ∨ r'.state = .normal)
      (hg : i.c.ins = 0xCA → tagOf i.c = 0x7F21 → r'.state = r0.state ∧ termOf f ≠ some 1 ∧ f' = f ∧ ((∀ d, a ≠ .resp d 0x9000) ∨
        ∃ k d, certOf r0.occ = some k ∧ f.certs k = some d ∧ a = .resp (d.take 0x480) 0x9000)) :
      TrkEff i f r (.done a) f' r'

theorem sw_bad {sw : SW} (h : sw ≠ 0x9000) : ∀ d, Reply.sw sw ≠ .resp d 0x9000 := by
  intro d e; injection e with _ e; exact h e

theorem readCert_any {k : K} {Q : Reply → Flash → Ram → Prop} {X : Flash → Ram → Prop}
    (hok : ∀ d, f.certs k = some d → Q (.resp (d.take 0x480) 0x9000) f r) (hno : Q ioErr f r) (hcut : X f r) :
    wp A (readCert k) Q Q X f r := by
  unfold readCert
  apply wp_bind
  refine wp_rdOr (fun d hd => ?_) (fun _ => hno) (fun _ => hno) (fun _ => hcut)
  obtain ⟨d', hd', rfl⟩ := Option.map_eq_some_iff.mp hd
  exact wp_pure (hok d' hd')

theorem tag_iff {i : In} : tagOf i.c = 0x7F21 ↔ i.c.p1 = 0x7F ∧ i.c.p2 = 0x21 := by
  unfold tagOf
  constructor
  · intro h
    have h1 := i.c.p1.toNat_lt
    have h2 := i.c.p2.toNat_lt
    constructor
    · apply UInt8.toNat_inj.mp; show i.c.p1.toNat = 127; omega
    · apply UInt8.toNat_inj.mp; show i.c.p2.toNat = 33; omega
  · rintro ⟨h1, h2⟩; rw [h1, h2]; rfl

theorem sel_wp (hc : i.c.cla = 0) (hi : i.c.ins = 0xA5) (ht : termOf f ≠ some 1) {r0 : Ram} (h0 : r0.state = .selectData) :
    wp anyFault (selectData i.c) (fun a => TrkEff i f r (.done a)) (fun a => TrkEff i f r (.done a)) (TrkEff i f r .cut) f r0 := by
  unfold selectData
  apply wp_bind; apply wp_mod
  apply wp_ite <;> intro hp
  · exact wp_bind (wp_throw (.sel hc hi ht _ _ h0 (.inr ⟨by decide, rfl⟩)))
  apply wp_ite <;> intro hl
  · exact wp_bind (wp_throw (.sel hc hi ht _ _ h0 (.inr ⟨by decide, rfl⟩)))
  apply wp_ite <;> intro hd
  · exact wp_bind (wp_throw (.sel hc hi ht _ _ h0 (.inr ⟨by decide, rfl⟩)))
  apply wp_bind; apply wp_mod
  refine wp_pure (.sel hc hi ht _ _ h0 (.inl ⟨rfl, rfl, ?_⟩))
  simp only [Bool.or_eq_true, decide_eq_true_eq, not_or] at hp
  exact UInt8.not_lt.mp hp.1

theorem next_wp (hc : i.c.cla = 0) (hi : i.c.ins = 0xCC) (ht : termOf f ≠ some 1) (hr : r.state = .getCert) :
    wp anyFault (getNext i.c) (fun a => TrkEff i f r (.done a)) (fun a => TrkEff i f r (.done a)) (TrkEff i f r .cut) f r := by
  unfold getNext
  apply wp_ite <;> intro hp
  · exact wp_bind (wp_throw (.next hc hi ht hr _ _ hr (.inl (sw_bad (by decide)))))
  apply wp_ite <;> intro hl
  · exact wp_bind (wp_throw (.next hc hi ht hr _ _ hr (.inl (sw_bad (by decide)))))
  apply wp_bind; apply wp_mod
  apply wp_bind; apply wp_get
  apply wp_ite <;> intro h1
  · simp only [beq_iff_eq] at h1
    exact readCert_any (fun d hd => .next hc hi ht hr _ _ hr (.inr ⟨.dec, d, by simp [certOf, h1], by simp, rfl, hd, rfl⟩))
      (.next hc hi ht hr _ _ hr (.inl (sw_bad (by decide)))) (.cut _ _ (fun _ _ => rfl))
  apply wp_ite <;> intro h2
  · simp only [beq_iff_eq] at h2
    exact readCert_any (fun d hd => .next hc hi ht hr _ _ hr (.inr ⟨.aut, d, by simp [certOf, h2], by simp, rfl, hd, rfl⟩))
      (.next hc hi ht hr _ _ hr (.inl (sw_bad (by decide)))) (.cut _ _ (fun _ _ => rfl))
  · exact wp_throw (.next hc hi ht hr _ _ hr (.inl (sw_bad (by decide))))

theorem put_wp (hc : i.c.cla = 0) (hi : i.c.ins = 0xDA) (hg : tagOf i.c = 0x7F21) {r0 : Ram} (ht : track i.c r = some r0) :
    wp anyFault (putData x i) (fun a => TrkEff i f r (.done a)) (fun a => TrkEff i f r (.done a)) (TrkEff i f r .cut) f r0 := by
  have no : ∀ sw : SW, sw ≠ 0x9000 → TrkEff i f r (.done (.sw sw)) f r0 :=
    fun sw h => .put hc hi hg r0 ht _ _ _ rfl (.inl ⟨sw_bad h, rfl, rfl⟩)
  unfold putData needAdmin
  simp only [hg, Nat.reduceEqDiff, if_false, if_true]
  apply wp_bind; apply wp_bind; apply wp_get
  apply wp_ite <;> intro hv
  · exact wp_throw (no _ (by decide))
  refine wp_pure ?_
  unfold putCert
  apply wp_ite <;> intro hl
  · exact wp_bind (wp_throw (no _ (by decide)))
  apply wp_bind; apply wp_get
  cases hk : certOf r0.occ with
  | none => exact wp_throw (no _ (by decide))
  | some k =>
    simp only []
    apply wp_bind
    refine wp_wrOr (fun f' hf => ?_) (fun _ => no _ (by decide)) (fun _ => no _ (by decide)) (fun _ => .cut _ _ (fun _ _ => rfl))
    simp only [Option.some.injEq] at hf; subst hf
    apply wp_bind; apply wp_mod
    refine wp_pure (.put hc hi hg r0 ht _ _ _ rfl (.inr ⟨k, hk, rfl, rfl, ?_, rfl⟩))
    simp only [Apdu.Capdu.lc] at hl
    omega

theorem get_wp (ht : tagOf i.c = 0x7F21) {r0 : Ram} :
    wp anyFault (getData i)
      (fun a f' _ => f' = f ∧ ((∀ d, a ≠ .resp d 0x9000) ∨ ∃ k d, certOf r0.occ = some k ∧ f.certs k = some d ∧ a = .resp (d.take 0x480) 0x9000))
      (fun a f' _ => f' = f ∧ ((∀ d, a ≠ .resp d 0x9000) ∨ ∃ k d, certOf r0.occ = some k ∧ f.certs k = some d ∧ a = .resp (d.take 0x480) 0x9000))
      (fun _ _ => True) f r0 := by
  have bad : ∀ sw : SW, sw ≠ 0x9000 → f = f ∧ ((∀ d, Reply.sw sw ≠ .resp d 0x9000) ∨
      ∃ k d, certOf r0.occ = some k ∧ f.certs k = some d ∧ Reply.sw sw = .resp (d.take 0x480) 0x9000) :=
    fun sw h => ⟨rfl, .inl (sw_bad h)⟩
  unfold getData readMeta
  simp only [ht, Nat.reduceEqDiff, if_false, if_true]
  apply wp_ite <;> intro hl
  · exact wp_bind (wp_throw (bad _ (by decide)))
  apply wp_bind; refine wp_rdOr (fun _ _ => ?_) (fun _ => bad _ (by decide)) (fun _ => bad _ (by decide)) (fun _ => trivial)
  apply wp_bind; refine wp_rdOr (fun _ _ => ?_) (fun _ => bad _ (by decide)) (fun _ => bad _ (by decide)) (fun _ => trivial)
  apply wp_bind; refine wp_rdOr (fun _ _ => ?_) (fun _ => bad _ (by decide)) (fun _ => bad _ (by decide)) (fun _ => trivial)
  apply wp_bind; apply wp_get
  cases hk : certOf r0.occ with
  | none => exact wp_throw ⟨rfl, .inl (sw_bad (by decide))⟩
  | some k => exact readCert_any (fun d hd => ⟨rfl, .inr ⟨k, d, rfl, hd, rfl⟩⟩) ⟨rfl, .inl (sw_bad (by decide))⟩ trivial

theorem install_occ {b : Bool} : Keeps (fun r r' : Ram => r'.occ = r.occ ∧ (r'.state = r.state ∨ r'.state = .normal)) (install b) := by
  haveI : PreOrd (fun r r' : Ram => r'.occ = r.occ ∧ (r'.state = r.state ∨ r'.state = .normal)) :=
    ⟨fun _ => ⟨rfl, .inl rfl⟩, fun h h' => ⟨h'.1.trans h.1, by
      rcases h'.2 with h2 | h2
      · rw [h2]; exact h.2
      · exact .inr h2⟩⟩
  unfold install installAll installData installKey installRest resetCtr createPin writeKey setData setKey
  kps (first
    | exact onPin_occ.mono (fun _ _ h => ⟨h.1, .inl h.2⟩)
    | exact fun _ => ⟨rfl, .inl rfl⟩
    | exact fun _ => ⟨rfl, .inr rfl⟩)

theorem process_trk : wp anyFault (process x i) (fun a => TrkEff i f r (.done a)) (fun a => TrkEff i f r (.done a))
    (TrkEff i f r .cut) f r := by
  unfold process
  apply wp_ite <;> intro hc
  · exact wp_bind (wp_throw (.same (.inl (by simpa using hc)) _ (by decide)))
  have hc : i.c.cla = 0 := by simpa using hc
  apply wp_bind; apply wp_get
  cases ht : track i.c r with
  | none =>
    refine wp_throw (.same (.inr ?_) _ (by decide))
    unfold track at ht
    simp only at ht
    repeat' split at ht
    all_goals first | (cases ht; done) | simp_all
  | some r0 =>
    simp only []
    unfold getAttr
    apply wp_bind; apply wp_mod
    apply wp_bind
    refine wp_rdOr (fun t htm => ?_) (fun _ => .gate hc _ ht _ (by decide) (.inl rfl)) (fun _ => .gate hc _ ht _ (by decide) (.inl rfl))
      (fun _ => .cut _ _ (fun _ _ => rfl))
    apply wp_ite <;> intro hg
    · have h1 : t = 1 := by
        simp only [Bool.and_eq_true, beq_iff_eq] at hg; exact hg.1.1
      exact wp_bind (wp_throw (.gate hc _ ht _ (by decide) (.inr (h1 ▸ htm))))
    have hn : i.c.ins ≠ 0x44 → i.c.ins ≠ 0xA4 → termOf f ≠ some 1 := by
      intro h1 h2 h3
      have : t = 1 := by
        have := htm.symm.trans h3
        injection this
      apply hg
      simp [this, h1, h2]
    by_cases h1 : i.c.ins = 0xA5
    · rw [show dispatch x i t = selectData i.c by simp [dispatch, h1]]
      exact sel_wp hc h1 (hn (by rw [h1]; decide) (by rw [h1]; decide)) (by
        simp [track, h1] at ht; rw [← ht])
    by_cases h2 : i.c.ins = 0xCC
    · rw [show dispatch x i t = getNext i.c by simp [dispatch, h2]]
      have h3 : r.state = .getCert ∧ r0 = r := by
        unfold track at ht
        simp only [h2] at ht
        revert ht
        cases hs : r.state <;> simp
        exact fun h => h.symm
      rw [h3.2]
      exact next_wp hc h2 (hn (by rw [h2]; decide) (by rw [h2]; decide)) h3.1
    by_cases h4 : i.c.ins = 0xDA ∧ tagOf i.c = 0x7F21
    · rw [show dispatch x i t = putData x i by simp [dispatch, h4.1]]
      exact put_wp hc h4.1 h4.2 ht
    have h4 : i.c.ins = 0xDA → tagOf i.c ≠ 0x7F21 := fun h h' => h4 ⟨h, h'⟩
    by_cases h5 : i.c.ins = 0x44
    · have h6 : i.c.ins ≠ 0xCA := by rw [h5]; decide
      rw [show dispatch x i t = activate i.c t by simp [dispatch, h5]]
      unfold activate
      apply wp_ite <;> intro ha
      · exact wp_bind (wp_throw (.other hc h1 h2 h4 _ ht _ _ _ rfl (.inl rfl) (fun h => absurd h h6)))
      apply wp_ite <;> intro hb
      · exact wp_bind (wp_throw (.other hc h1 h2 h4 _ ht _ _ _ rfl (.inl rfl) (fun h => absurd h h6)))
      apply wp_bind
      refine wp_mono (install_occ.wpAny) (fun _ f' r' h => ?_) (fun e f' r' h => ?_) (fun f' r' h => .cut _ _ (fun h => absurd h (by rw [h5]; decide)))
      · exact wp_pure (.other hc h1 h2 h4 _ ht _ _ _ h.1 h.2 (fun h => absurd h h6))
      · exact .other hc h1 h2 h4 _ ht _ _ _ h.1 h.2 (fun h => absurd h h6)
    by_cases h6 : i.c.ins = 0xCA ∧ tagOf i.c = 0x7F21
    · rw [show dispatch x i t = getData i by simp [dispatch, h6.1]]
      refine wp_mono (getData_occ.wp (get_wp h6.2)) (fun a f' r' h => ?_) (fun a f' r' h => ?_) (fun f' r' h => .cut _ _ (fun h => absurd h (by rw [h6.1]; decide)))
      all_goals
        obtain ⟨⟨rfl, h⟩, h7⟩ := h
        exact .other hc h1 h2 h4 _ ht _ _ _ h7.1 (.inl h7.2)
          (fun _ _ => ⟨h7.2, hn (by rw [h6.1]; decide) (by rw [h6.1]; decide), rfl, h⟩)
    · refine wp_mono (dispatch_occ h1 h2 h5 h4).wpAny (fun a f' r' h => ?_) (fun a f' r' h => ?_) (fun f' r' h => .cut _ _ (fun h h' => absurd h' (h4 h)))
      all_goals
        exact .other hc h1 h2 h4 _ ht _ _ _ h.1 (.inl h.2) (fun h h' => absurd ⟨h, h'⟩ h6)

theorem step_trk {s : St} {env : Env} (hr : s.ram = some r) : ∃ o f' r', TrkEff i s.flash r o f' r' ∧
    step x s (.apdu i) env = (⟨f', ramOf o r'⟩, outOf o) := by
  obtain ⟨f, ram⟩ := s
  dsimp only at hr
  subst hr
  exact exec_of_wp anyAll (process_trk (x := x) (i := i) (f := f) (r := r))

end Verif.Pgp
