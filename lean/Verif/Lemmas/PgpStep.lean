import Verif.Lemmas.PgpUse
/-
Installation, the dispatcher, steps and histories of the OpenPGP applet.
-/
set_option linter.unusedSimpArgs false
namespace Verif.Pgp
open Cmd Verif.Spec.Pgp Verif.KeyFile

variable {A : Fault → Prop} {x : Ext} {i : In} {f : Flash} {r : Ram}

/-! ### Installation -/

/-- How far an interrupted installation may have come. -/
structure Mid (f f' : Flash) : Prop where
  term : termOf f' = termOf f ∨ termOf f' = some 1
  ctr : ctrOf f' = ctrOf f ∨ ctrOf f' = some (0, 0, 0)
  pins : termOf f' = some 1 ∨ f'.pw1 = f.pw1 ∧ f'.pw3 = f.pw3 ∧ f'.rc = f.rc

/-- Half way: the applet is marked as terminated. -/
structure Half (f f' : Flash) : Prop where
  term : ∃ d, f'.data = some d ∧ d.term = some 1
  ctr : ctrOf f' = ctrOf f ∨ ctrOf f' = some (0, 0, 0)

theorem Half.mid {f' : Flash} (h : Half f f') : Mid f f' := by
  obtain ⟨⟨d, hd, ht⟩, hc⟩ := h
  exact ⟨.inr (by simp [termOf, hd, ht]), hc, .inl (by simp [termOf, hd, ht])⟩

/-- Exits of the installation. -/
abbrev InstE (A : Fault → Prop) (f : Flash) (r : Ram) (e : Reply) (f' : Flash) (r' : Ram) : Prop :=
  e = ioErr ∧ A .fail ∧ Mid f f' ∧ (r' = r ∨ r' = { r with cache := 0 })
abbrev InstX (A : Fault → Prop) (f : Flash) (f' : Flash) (_ : Ram) : Prop := A .cut ∧ Mid f f'

/-- The data after the first part. -/
def data1 (d : Data) : Data :=
  { d with url := [], term := some 1, login := some [], name := some [], lang := some [], sex := some [0x39],
           pwStatus := some 0 }

theorem installData_wp : wp A installData
    (fun _ f' r' => f' = { f with data := some (data1 (f.data.getD Data.empty)) } ∧ r' = r)
    (InstE A f r) (InstX A f) f r := by
  unfold installData
  have mid1 : Mid f { f with data := some { (f.data.getD Data.empty) with url := [] } } := by
    refine ⟨.inl ?_, .inl ?_, .inr ⟨rfl, rfl, rfl⟩⟩ <;> cases hd : f.data <;> simp [termOf, ctrOf, hd, Data.empty]
  have mid : ∀ d : Data, d.term = some 1 → d.ctr = (f.data.getD Data.empty).ctr → Mid f { f with data := some d } := by
    intro d h1 h2
    exact ⟨.inr (by simp [termOf, h1]), .inl (by cases hd : f.data <;> simp [ctrOf, h2, hd, Data.empty]),
      .inl (by simp [termOf, h1])⟩
  apply wp_bind; apply wp_wrOr
  rotate_left
  · intro h; cases h
  · exact fun h => ⟨rfl, h, ⟨.inl rfl, .inl rfl, .inr ⟨rfl, rfl, rfl⟩⟩, .inl rfl⟩
  · exact fun h => ⟨h, ⟨.inl rfl, .inl rfl, .inr ⟨rfl, rfl, rfl⟩⟩⟩
  intro f' hf
  simp only [Option.some.injEq] at hf
  subst hf
  apply wp_bind; apply setData_wp
  rotate_left
  · intro h; cases h
  · exact fun h => ⟨rfl, h, mid1, .inl rfl⟩
  · exact fun h => ⟨h, mid1⟩
  intro d hd; simp only [Option.some.injEq] at hd; subst hd
  iterate 4
    apply wp_bind; apply setData_wp
    rotate_left
    · intro h; cases h
    · exact fun h => ⟨rfl, h, mid _ (by exact rfl) (by exact rfl), .inl rfl⟩
    · exact fun h => ⟨h, mid _ (by exact rfl) (by exact rfl)⟩
    intro d hd; simp only [Option.some.injEq] at hd; subst hd
  apply setData_wp
  rotate_left
  · intro h; cases h
  · exact fun h => ⟨rfl, h, mid _ (by exact rfl) (by exact rfl), .inl rfl⟩
  · exact fun h => ⟨h, mid _ (by exact rfl) (by exact rfl)⟩
  intro d hd; simp only [Option.some.injEq] at hd; subst hd
  exact ⟨rfl, rfl⟩

theorem Half.setKey {f0 : Flash} (h : Half f0 f) (k : K) (p : PKey) : Half f0 (f.setKey k p) := ⟨h.1, h.2⟩

theorem installKey_wp {f0 : Flash} {r0 : Ram} (h : Half f0 f) (hr : r = r0 ∨ r = { r0 with cache := 0 }) (k : K) (u : Byte) :
    wp A (installKey k u) (fun _ f' r' => f' = f.setKey k (factoryKey u) ∧ r' = r) (InstE A f0 r0) (InstX A f0) f r := by
  unfold installKey
  apply wp_bind; apply writeKey_wp
  rotate_left
  · rintro f' hA (rfl | rfl)
    · exact ⟨rfl, hA, h.mid, hr⟩
    · exact ⟨rfl, hA, (h.setKey _ _).mid, hr⟩
  · rintro f' hA (rfl | rfl)
    · exact ⟨hA, h.mid⟩
    · exact ⟨hA, (h.setKey _ _).mid⟩
  apply wp_bind; apply setKey_wp
  rotate_left
  · intro h; simp at h
  · exact fun hA => ⟨rfl, hA, (h.setKey _ _).mid, hr⟩
  · exact fun hA => ⟨hA, (h.setKey _ _).mid⟩
  intro p hp
  simp only [setKey_keys, if_true, Option.some.injEq] at hp
  subst hp
  rw [setKey_setKey]
  apply setKey_wp
  rotate_left
  · intro h; simp at h
  · exact fun hA => ⟨rfl, hA, (h.setKey _ _).mid, hr⟩
  · exact fun hA => ⟨hA, (h.setKey _ _).mid⟩
  intro p hp
  simp only [setKey_keys, if_true, Option.some.injEq] at hp
  subst hp
  rw [setKey_setKey]
  exact ⟨rfl, rfl⟩

/-- The data after the second part. -/
def data2 (d : Data) : Data :=
  { d with ca1 := some (List.replicate 20 0), ca2 := some (List.replicate 20 0), ca3 := some (List.replicate 20 0),
           cache := some 0, ctr := some (0, 0, 0) }

theorem installRest_wp {f0 : Flash} {r0 : Ram} (h : Half f0 f) (hr : r = r0) {d : Data} (hd : f.data = some d) :
    wp A installRest (fun _ f' r' => f' = { f with data := some (data2 d), certs := fun _ => some [] } ∧
      r' = { r with cache := 0 }) (InstE A f0 r0) (InstX A f0) f r := by
  subst hr
  unfold installRest
  have ht : d.term = some 1 := by
    obtain ⟨d', hd', ht⟩ := h.1
    rw [hd] at hd'; cases hd'; exact ht
  have hc : d.ctr = ctrOf f := by simp [ctrOf, hd]
  have half : ∀ (d' : Data) (ce : K → Option Bytes), d'.term = d.term → (d'.ctr = d.ctr ∨ d'.ctr = some (0, 0, 0)) →
      Half f0 { f with data := some d', certs := ce } := by
    intro d' ce h1 h2
    refine ⟨⟨d', rfl, by rw [h1, ht]⟩, ?_⟩
    have e : ctrOf { f with data := some d', certs := ce } = d'.ctr := rfl
    rw [e]
    rcases h2 with h2 | h2
    · rw [h2, hc]; exact h.2
    · exact .inr h2
  apply wp_bind; apply setData_wp
  rotate_left
  · intro h; rw [hd] at h; cases h
  · exact fun hA => ⟨rfl, hA, h.mid, .inl rfl⟩
  · exact fun hA => ⟨hA, h.mid⟩
  intro d' hd'; rw [hd] at hd'; simp only [Option.some.injEq] at hd'; subst hd'
  iterate 2
    apply wp_bind; apply setData_wp
    rotate_left
    · intro h; cases h
    · exact fun hA => ⟨rfl, hA, (half _ f.certs (by exact rfl) (.inl (by exact rfl))).mid, .inl rfl⟩
    · exact fun hA => ⟨hA, (half _ f.certs (by exact rfl) (.inl (by exact rfl))).mid⟩
    intro d hd; simp only [Option.some.injEq] at hd; subst hd
  apply wp_bind; apply wp_mod
  iterate 2
    apply wp_bind; apply setData_wp
    rotate_left
    · intro h; cases h
    · exact fun hA => ⟨rfl, hA, (half _ f.certs (by exact rfl) (.inl (by exact rfl))).mid, .inr rfl⟩
    · exact fun hA => ⟨hA, (half _ f.certs (by exact rfl) (.inl (by exact rfl))).mid⟩
    intro d hd; simp only [Option.some.injEq] at hd; subst hd
  iterate 2
    apply wp_bind; apply wp_wrOr
    rotate_left
    · intro h; cases h
    · exact fun hA => ⟨rfl, hA, (half _ _ (by exact rfl) (.inr (by exact rfl))).mid, .inr rfl⟩
    · exact fun hA => ⟨hA, (half _ _ (by exact rfl) (.inr (by exact rfl))).mid⟩
    intro f' hf; simp only [Option.some.injEq] at hf; subst hf
  apply wp_wrOr
  rotate_left
  · intro h; cases h
  · exact fun hA => ⟨rfl, hA, (half _ _ (by exact rfl) (.inr (by exact rfl))).mid, .inr rfl⟩
  · exact fun hA => ⟨hA, (half _ _ (by exact rfl) (.inr (by exact rfl))).mid⟩
  intro f' hf; simp only [Option.some.injEq] at hf; subst hf
  refine ⟨?_, rfl⟩
  unfold Flash.setCert data2 zero20
  congr 1
  funext k
  cases k <;> rfl

theorem createPin_wp {f0 : Flash} {r0 : Ram} (h : Half f0 f) (hr : r = { r0 with cache := 0 }) (w : Which) (d : Bytes) :
    wp A (createPin w d) (fun _ f' r' => f' = (partF w).set (some ⟨d, some 3, some 3⟩) f ∧ r' = r)
      (InstE A f0 r0) (InstX A f0) f r := by
  have half : ∀ p, Half f0 ((partF w).set p f) := fun p => by cases w <;> exact ⟨h.1, h.2⟩
  unfold createPin
  apply wp_bind
  apply wp_onPin Pin.create_wp
  · rintro rc p q ⟨hc, rfl⟩
    rw [set_get_R]
    cases hc with
    | io _ hA hf =>
      exact wp_throw ⟨rfl, hA, (half _).mid, .inr hr⟩
    | done => exact wp_pure ⟨rfl, rfl⟩
  · rintro p q ⟨hA, _⟩
    exact ⟨hA, (half _).mid⟩

theorem installAll_wp : wp A installAll (fun _ f' r' => f' = factory ∧ r' = { r with cache := 0 })
    (InstE A f r) (InstX A f) f r := by
  unfold installAll
  apply wp_bind
  refine wp_mono installData_wp ?_ (fun _ _ _ h => h) (fun _ _ h => h)
  rintro _ f1 r1 ⟨rfl, rfl⟩
  have half : ∀ (ks : K → Option PKey), Half f { f with data := some (data1 (f.data.getD Data.empty)), keys := ks } := by
    intro ks
    exact ⟨⟨_, rfl, rfl⟩, .inl (by cases hd : f.data <;> simp [ctrOf, data1, hd, Data.empty])⟩
  apply wp_bind
  refine wp_mono (installKey_wp (half f.keys) (.inl rfl) _ _) ?_ (fun _ _ _ h => h) (fun _ _ h => h)
  rintro _ f1 r1 ⟨rfl, rfl⟩
  apply wp_bind
  refine wp_mono (installKey_wp ((half f.keys).setKey _ _) (.inl rfl) _ _) ?_ (fun _ _ _ h => h) (fun _ _ h => h)
  rintro _ f1 r1 ⟨rfl, rfl⟩
  apply wp_bind
  refine wp_mono (installKey_wp (((half f.keys).setKey _ _).setKey _ _) (.inl rfl) _ _) ?_ (fun _ _ _ h => h) (fun _ _ h => h)
  rintro _ f1 r1 ⟨rfl, rfl⟩
  apply wp_bind
  refine wp_mono (installRest_wp ((((half f.keys).setKey _ _).setKey _ _).setKey _ _) rfl rfl) ?_
    (fun _ _ _ h => h) (fun _ _ h => h)
  rintro _ f1 r1 ⟨rfl, rfl⟩
  have half2 : ∀ (ks : K → Option PKey) (ce : K → Option Bytes) (a b c : Pin.Flash),
      Half f ⟨some (data2 (data1 (f.data.getD Data.empty))), ks, ce, a, b, c⟩ := by
    intro ks ce a b c
    exact ⟨⟨_, rfl, rfl⟩, .inr rfl⟩
  apply wp_bind
  refine wp_mono (createPin_wp (half2 _ _ _ _ _) rfl _ _) ?_ (fun _ _ _ h => h) (fun _ _ h => h)
  rintro _ f1 r1 ⟨rfl, rfl⟩
  apply wp_bind
  refine wp_mono (createPin_wp (half2 _ _ _ _ _) rfl _ _) ?_ (fun _ _ _ h => h) (fun _ _ h => h)
  rintro _ f1 r1 ⟨rfl, rfl⟩
  apply wp_bind
  refine wp_mono (createPin_wp (half2 _ _ _ _ _) rfl _ _) ?_ (fun _ _ _ h => h) (fun _ _ h => h)
  rintro _ f1 r1 ⟨rfl, rfl⟩
  apply setData_wp
  rotate_left
  · intro h; cases h
  · exact fun hA => ⟨rfl, hA, (half2 _ _ _ _ _).mid, .inr rfl⟩
  · exact fun hA => ⟨hA, (half2 _ _ _ _ _).mid⟩
  intro d hd
  have hd : some (data2 (data1 (f.data.getD Data.empty))) = some d := hd
  simp only [Option.some.injEq] at hd
  subst hd
  refine ⟨?_, rfl⟩
  unfold factory
  congr 1
  funext k
  cases k <;> rfl

/-- The outcomes of an installation. -/
inductive InstEff (A : Fault → Prop) (f : Flash) (r : Ram) : Outcome Reply → Flash → Ram → Prop
  | done : InstEff A f r (.done (.sw 0x9000)) factory { poweroff r with cache := 0 }
  | fail (h : A .fail) (f' : Flash) (hm : Mid f f') (r' : Ram)
      (hr : r' = poweroff r ∨ r' = { poweroff r with cache := 0 }) : InstEff A f r (.done ioErr) f' r'
  | cut (h : A .cut) (f' : Flash) (hm : Mid f f') (r' : Ram) : InstEff A f r .cut f' r'

/-- The outcomes of a start. -/
inductive BootEff (A : Fault → Prop) (f : Flash) (r : Ram) : Outcome Reply → Flash → Ram → Prop
  | nop (h : f.data ≠ none) : BootEff A f r (.done (.sw 0x9000)) f (poweroff r)
  | inst (h : f.data = none ∨ A .fail) (o : Outcome Reply) (f' : Flash) (r' : Ram) (h' : InstEff A f r o f' r') :
      BootEff A f r o f' r'
  | cut (h : A .cut) (r' : Ram) : BootEff A f r .cut f r'

theorem factory_wp : wp A (installOp true) (fun a => InstEff A f r (.done a)) (fun a => InstEff A f r (.done a))
    (InstEff A f r .cut) f r := by
  unfold installOp install
  apply wp_bind; apply wp_bind; apply wp_mod
  rw [if_pos rfl]
  refine wp_mono installAll_wp ?_ ?_ ?_
  · rintro _ f' r' ⟨rfl, rfl⟩; exact wp_pure .done
  · rintro e f' r' ⟨rfl, h1, h2, h3⟩; exact .fail h1 _ h2 _ h3
  · rintro f' r' ⟨h1, h2⟩; exact .cut h1 _ h2 _

theorem boot_wp : wp A (installOp false) (fun a => BootEff A f r (.done a)) (fun a => BootEff A f r (.done a))
    (BootEff A f r .cut) f r := by
  unfold installOp install
  apply wp_bind; apply wp_bind; apply wp_mod
  show wp A (do
    if (← Cmd.rdF fun f => f.data).isSome then return ()
    else installAll : M Unit) _ _ _ _ _
  have inst : (f.data = none ∨ A .fail) → wp A installAll (fun _ => wp A (pure (.sw SW.ok))
      (fun a => BootEff A f r (.done a)) (fun a => BootEff A f r (.done a)) (BootEff A f r .cut))
      (fun a => BootEff A f r (.done a)) (BootEff A f r .cut) f (poweroff r) := by
    intro h
    refine wp_mono installAll_wp ?_ ?_ ?_
    · rintro _ f' r' ⟨rfl, rfl⟩; exact wp_pure (.inst h _ _ _ .done)
    · rintro e f' r' ⟨rfl, h1, h2, h3⟩; exact .inst h _ _ _ (.fail h1 _ h2 _ h3)
    · rintro f' r' ⟨h1, h2⟩; exact .inst h _ _ _ (.cut h1 _ h2 _)
  apply wp_bind
  apply wp_rdF
  · intro _
    cases hd : f.data with
    | none => exact inst (.inl hd)
    | some d => exact wp_pure (wp_pure (.nop (by rw [hd]; simp)))
  · intro h
    exact inst (.inr h)
  · exact fun h => .cut h _

/-! ### The dispatcher -/

/-- The outcomes of a command whose class and state were accepted. -/
inductive CEff (A : Fault → Prop) (x : Ext) (i : In) (f : Flash) (r : Ram) : Outcome Reply → Flash → Ram → Prop
  | read (h : i.c.ins ∉ [0x20, 0x24, 0x2C, 0xDA, 0xDB, 0x47, 0x88, 0xE6]) (hs : ¬ IsSign i) (hd : ¬ IsDecipher i)
      (hi : i.c.ins = 0x44 → termOf f = some 0 ∨ i.c.p1 ≠ 0 ∨ i.c.p2 ≠ 0) (a : Reply) (r' : Ram)
      (hr : Same r r') (hb : Bad (.done a) ∨ i.c.ins ≠ 0x44 ∧ ∃ d, a = .resp d 0x9000) : CEff A x i f r (.done a) f r'
  | cut (h : A .cut) (r' : Ram) : CEff A x i f r .cut f r'
  | verify (h : i.c.ins = 0x20) (o : Outcome Reply) (f' : Flash) (r' : Ram) (he : VerifyEff A x i f r o f' r') :
      CEff A x i f r o f' r'
  | change (h : i.c.ins = 0x24) (o : Outcome Reply) (f' : Flash) (r' : Ram) (he : ChangeEff A x i f r o f' r') :
      CEff A x i f r o f' r'
  | rrc (h : i.c.ins = 0x2C) (o : Outcome Reply) (f' : Flash) (r' : Ram) (he : RrcEff A x i f r o f' r') :
      CEff A x i f r o f' r'
  | put (h : i.c.ins = 0xDA) (o : Outcome Reply) (f' : Flash) (r' : Ram) (he : AdmEff f r (PutEff A i f r) o f' r') :
      CEff A x i f r o f' r'
  | imp (h : i.c.ins = 0xDB) (o : Outcome Reply) (f' : Flash) (r' : Ram) (he : AdmEff f r (ImpEff A i f r) o f' r') :
      CEff A x i f r o f' r'
  | gen (h : i.c.ins = 0x47) (o : Outcome Reply) (f' : Flash) (r' : Ram) (he : GenEff A i f r o f' r') :
      CEff A x i f r o f' r'
  | sign (h : IsSign i) (o : Outcome Reply) (f' : Flash) (r' : Ram) (he : SignEff A x i true f r o f' r') :
      CEff A x i f r o f' r'
  | auth (h : IsAuth i) (o : Outcome Reply) (f' : Flash) (r' : Ram) (he : SignEff A x i false f r o f' r') :
      CEff A x i f r o f' r'
  | dec (h : IsDecipher i) (o : Outcome Reply) (f' : Flash) (r' : Ram) (he : DecEff A x i f r o f' r') :
      CEff A x i f r o f' r'
  | term (h : i.c.ins = 0xE6) (o : Outcome Reply) (f' : Flash) (r' : Ram) (he : TermEff A f r o f' r') :
      CEff A x i f r o f' r'
  | act (h : i.c.ins = 0x44) (ht : termOf f ≠ some 0) (o : Outcome Reply) (f' : Flash) (r' : Ram)
      (he : InstEff A f r o f' r') : CEff A x i f r o f' r'

theorem reads_ceff {m : M Reply} (h : i.c.ins ∉ [0x20, 0x24, 0x2C, 0xDA, 0xDB, 0x47, 0x88, 0xE6, 0x2A, 0x44])
    (hm : Reads A m f r) :
    wp A m (fun a => CEff A x i f r (.done a)) (fun a => CEff A x i f r (.done a)) (CEff A x i f r .cut) f r := by
  simp only [List.mem_cons, List.not_mem_nil, or_false, not_or] at h
  have hq : ∀ a f' r', Rd f r a f' r' → CEff A x i f r (.done a) f' r' := by
    rintro a f' r' ⟨rfl, hs, hb⟩
    refine .read (by simp [h]) (fun e => h.2.2.2.2.2.2.2.2.1 e.1) (fun e => h.2.2.2.2.2.2.2.2.1 e.1)
      (fun e => absurd e h.2.2.2.2.2.2.2.2.2) a r' hs (hb.imp id fun hd => ⟨h.2.2.2.2.2.2.2.2.2, hd⟩)
  refine wp_mono hm hq hq ?_
  rintro f' r' ⟨rfl, hc⟩
  exact .cut hc _

theorem dispatch_wp (hx : x.Ok) {t : Byte} (ht : termOf f = some t) :
    wp A (dispatch x i t) (fun a => CEff A x i f r (.done a)) (fun a => CEff A x i f r (.done a))
      (CEff A x i f r .cut) f r := by
  unfold dispatch
  apply wp_ite <;> intro h0
  · have h0 : i.c.ins = 0xA4 := by simpa using h0
    exact reads_ceff (by rw [h0]; decide) (select_wp _)
  apply wp_ite <;> intro h1
  · have h1 : i.c.ins = 0x44 := by simpa using h1
    unfold activate
    have bad : ∀ sw : Nat, sw ≠ 0x9000 → (t = 0 ∨ i.c.p1 ≠ 0 ∨ i.c.p2 ≠ 0) → CEff A x i f r (.done (.sw sw)) f r :=
      fun sw hsw hb => .read (by rw [h1]; decide) (fun e => absurd e.1 (by rw [h1]; decide))
        (fun e => absurd e.1 (by rw [h1]; decide)) (fun _ => hb.imp (fun e => by rw [ht, e]) id) _ _ .rfl' (.inl (bad_sw hsw))
    apply wp_ite <;> intro h2
    · exact wp_throw (bad _ (by decide) (.inl (by simpa using h2)))
    apply wp_ite <;> intro h3
    · refine wp_throw (bad _ (by decide) (.inr ?_))
      simpa using h3
    have ht' : termOf f ≠ some 0 := by
      rw [ht]; intro e; cases e; exact h2 rfl
    show wp A (installOp true) _ _ _ _ _
    refine wp_mono factory_wp ?_ ?_ ?_
    · exact fun _ _ _ h => .act h1 ht' _ _ _ h
    · exact fun _ _ _ h => .act h1 ht' _ _ _ h
    · exact fun _ _ h => .act h1 ht' _ _ _ h
  apply wp_ite <;> intro h2
  · have h2 : i.c.ins = 0xCA := by simpa using h2
    exact reads_ceff (by rw [h2]; decide) getData_wp
  apply wp_ite <;> intro h3
  · have h3 : i.c.ins = 0xA5 := by simpa using h3
    exact reads_ceff (by rw [h3]; decide) (selectData_wp _)
  apply wp_ite <;> intro h4
  · have h4 : i.c.ins = 0xCC := by simpa using h4
    exact reads_ceff (by rw [h4]; decide) (getNext_wp _)
  apply wp_ite <;> intro h5
  · have h5 : i.c.ins = 0x20 := by simpa using h5
    exact wp_mono (verify_wp hx) (fun _ _ _ h => .verify h5 _ _ _ h) (fun _ _ _ h => .verify h5 _ _ _ h)
      (fun _ _ h => .verify h5 _ _ _ h)
  apply wp_ite <;> intro h6
  · have h6 : i.c.ins = 0x24 := by simpa using h6
    exact wp_mono (changeRef_wp hx) (fun _ _ _ h => .change h6 _ _ _ h) (fun _ _ _ h => .change h6 _ _ _ h)
      (fun _ _ h => .change h6 _ _ _ h)
  apply wp_ite <;> intro h7
  · have h7 : i.c.ins = 0x2C := by simpa using h7
    exact wp_mono (resetRetry_wp hx) (fun _ _ _ h => .rrc h7 _ _ _ h) (fun _ _ _ h => .rrc h7 _ _ _ h)
      (fun _ _ h => .rrc h7 _ _ _ h)
  apply wp_ite <;> intro h8
  · have h8 : i.c.ins = 0xDA := by simpa using h8
    exact wp_mono putData_wp (fun _ _ _ h => .put h8 _ _ _ h) (fun _ _ _ h => .put h8 _ _ _ h)
      (fun _ _ h => .put h8 _ _ _ h)
  apply wp_ite <;> intro h9
  · have h9 : i.c.ins = 0xDB := by simpa using h9
    exact wp_mono import_wp (fun _ _ _ h => .imp h9 _ _ _ h) (fun _ _ _ h => .imp h9 _ _ _ h)
      (fun _ _ h => .imp h9 _ _ _ h)
  apply wp_ite <;> intro h10
  · have h10 : i.c.ins = 0x47 := by simpa using h10
    exact wp_mono generate_wp (fun _ _ _ h => .gen h10 _ _ _ h) (fun _ _ _ h => .gen h10 _ _ _ h)
      (fun _ _ h => .gen h10 _ _ _ h)
  have other : ∀ sw : Nat, sw ≠ 0x9000 → i.c.ins ≠ 0x88 → i.c.ins ≠ 0xE6 → ¬ IsSign i → ¬ IsDecipher i →
      CEff A x i f r (.done (.sw sw)) f r := by
    intro sw hsw a1 a2 a3 a4
    refine .read ?_ a3 a4 (fun e => absurd (by simpa using e) h1) _ _ .rfl' (.inl (bad_sw hsw))
    simp only [List.mem_cons, List.not_mem_nil, or_false, not_or]
    simp only [beq_iff_eq] at h5 h6 h7 h8 h9 h10
    exact ⟨h5, h6, h7, h8, h9, h10, a1, a2⟩
  apply wp_ite <;> intro h11
  · have h11 : i.c.ins = 0x2A := by simpa using h11
    apply wp_ite <;> intro h12
    · have h12 : i.c.p1 = 0x9E ∧ i.c.p2 = 0x9A := by simpa using h12
      have hs : IsSign i := ⟨h11, h12.1, h12.2⟩
      exact wp_mono (sign_wp true) (fun _ _ _ h => .sign hs _ _ _ h) (fun _ _ _ h => .sign hs _ _ _ h)
        (fun _ _ h => .sign hs _ _ _ h)
    apply wp_ite <;> intro h13
    · have h13 : i.c.p1 = 0x80 ∧ i.c.p2 = 0x86 := by simpa using h13
      have hs : IsDecipher i := ⟨h11, h13.1, h13.2⟩
      exact wp_mono decipher_wp (fun _ _ _ h => .dec hs _ _ _ h) (fun _ _ _ h => .dec hs _ _ _ h)
        (fun _ _ h => .dec hs _ _ _ h)
    · exact wp_throw (other _ (by decide) (by rw [h11]; decide) (by rw [h11]; decide)
        (fun e => h12 (by simp [e.2.1, e.2.2])) (fun e => h13 (by simp [e.2.1, e.2.2])))
  apply wp_ite <;> intro h12
  · have hs : IsAuth i := by unfold IsAuth; simpa using h12
    exact wp_mono (sign_wp false) (fun _ _ _ h => .auth hs _ _ _ h) (fun _ _ _ h => .auth hs _ _ _ h)
      (fun _ _ h => .auth hs _ _ _ h)
  apply wp_ite <;> intro h13
  · have h13 : i.c.ins = 0x84 := by simpa using h13
    exact reads_ceff (by rw [h13]; decide) getChallenge_wp
  apply wp_ite <;> intro h14
  · have h14 : i.c.ins = 0xE6 := by simpa using h14
    exact wp_mono (terminate_wp _) (fun _ _ _ h => .term h14 _ _ _ h) (fun _ _ _ h => .term h14 _ _ _ h)
      (fun _ _ h => .term h14 _ _ _ h)
  · exact wp_throw (other _ (by decide) (by simpa using h12) (by simpa using h14)
      (fun e => h11 (by simp [e.1])) (fun e => h11 (by simp [e.1])))

/-- The outcomes of any command. -/
inductive PEff (A : Fault → Prop) (x : Ext) (i : In) (f : Flash) (r : Ram) : Outcome Reply → Flash → Ram → Prop
  | cla (sw : Nat) (h : sw = 0x6E00 ∧ i.c.cla ≠ 0 ∨ sw = 0x6985 ∧ i.c.ins = 0xCC) :
      PEff A x i f r (.done (.sw sw)) f r
  | gate (r' : Ram) (hr : Trk r r') (sw : Nat)
      (h : sw = 0x6900 ∧ (termOf f = none ∨ A .fail) ∨
        sw = 0x6285 ∧ termOf f = some 1 ∧ i.c.ins ≠ 0x44 ∧ i.c.ins ≠ 0xA4) : PEff A x i f r (.done (.sw sw)) f r'
  | cut (h : A .cut) (r' : Ram) : PEff A x i f r .cut f r'
  | cmd (hc : i.c.cla = 0) (r0 : Ram) (hr : Trk r r0) (t : Byte) (ht : termOf f = some t)
      (hg : t = 1 → i.c.ins = 0x44 ∨ i.c.ins = 0xA4) (o : Outcome Reply) (f' : Flash) (r' : Ram)
      (h : CEff A x i f r0 o f' r') : PEff A x i f r o f' r'

theorem process_wp (hx : x.Ok) : wp A (process x i) (fun a => PEff A x i f r (.done a))
    (fun a => PEff A x i f r (.done a)) (PEff A x i f r .cut) f r := by
  unfold process
  apply wp_ite <;> intro hc
  · exact wp_throw (.cla _ (.inl ⟨rfl, by simpa using hc⟩))
  have hc : i.c.cla = 0 := by simpa using hc
  apply wp_bind; apply wp_get
  cases ht : track i.c r with
  | none =>
    refine wp_throw (.cla _ (.inr ⟨rfl, ?_⟩))
    unfold track at ht
    simp only at ht
    repeat' split at ht
    all_goals first | (cases ht; done) | simp_all
  | some r0 =>
    simp only []
    have tr := track_trk ht
    unfold getAttr
    apply wp_bind; apply wp_mod
    apply wp_bind
    apply wp_rdOr
    · intro t htm
      apply wp_ite <;> intro hg
      · have hg : t = 1 ∧ i.c.ins ≠ 0x44 ∧ i.c.ins ≠ 0xA4 := by simpa [and_assoc] using hg
        obtain ⟨rfl, h1, h2⟩ := hg
        exact wp_throw (.gate _ tr _ (.inr ⟨rfl, htm, h1, h2⟩))
      · have hg : t = 1 → i.c.ins = 0x44 ∨ i.c.ins = 0xA4 := by
          intro e
          simp [e] at hg
          by_cases h : i.c.ins = 0x44
          · exact .inl h
          · exact .inr (hg h)
        refine wp_mono (dispatch_wp hx htm) ?_ ?_ ?_
        · exact fun _ _ _ h => .cmd hc r0 tr t htm hg _ _ _ h
        · exact fun _ _ _ h => .cmd hc r0 tr t htm hg _ _ _ h
        · exact fun _ _ h => .cmd hc r0 tr t htm hg _ _ _ h
    · intro h; exact .gate _ tr _ (.inl ⟨rfl, .inl h⟩)
    · intro h; exact .gate _ tr _ (.inl ⟨rfl, .inr h⟩)
    · intro h; exact .cut h _

/-! ### Steps -/

/-- The observation that belongs to an outcome. -/
def outOf : Outcome Reply → Out
  | .cut => .cut
  | .done a => .reply a

/-- Variables after an outcome. -/
def ramOf (o : Outcome Reply) (r : Ram) : Option Ram :=
  match o with
  | .cut => none
  | .done _ => some r

theorem exec_of_wp {m : M Reply} {P : Outcome Reply → Flash → Ram → Prop} {env : Env} (henv : env.all A)
    (h : wp A m (fun a => P (.done a)) (fun a => P (.done a)) (P .cut) f r) :
    ∃ o f' r', P o f' r' ∧ exec m f r env = (⟨f', ramOf o r'⟩, outOf o) := by
  have := runCmd_of_wp (P := fun o f' r' => P o f' r') h henv
  unfold exec
  cases hr : runCmd m f r env with
  | mk f' p =>
    obtain ⟨r', o⟩ := p
    rw [hr] at this
    cases o with
    | cut => exact ⟨.cut, f', r', this, rfl⟩
    | done a => exact ⟨.done a, f', r', this, rfl⟩

/-- The outcomes of a step. -/
inductive SEff (A : Fault → Prop) (x : Ext) (s : St) : Op → St → Out → Prop
  | off (op : Op) (h : s.ram = none) (ho : op ≠ .boot) : SEff A x s op s .none
  | deselect (r : Ram) (h : s.ram = some r) : SEff A x s .deselect ⟨s.flash, some (poweroff r)⟩ .none
  | boot (o : Outcome Reply) (f' : Flash) (r' : Ram) (h : BootEff A s.flash Ram.init o f' r') :
      SEff A x s .boot ⟨f', ramOf o r'⟩ (outOf o)
  | factory (r : Ram) (hr : s.ram = some r) (o : Outcome Reply) (f' : Flash) (r' : Ram)
      (h : InstEff A s.flash r o f' r') : SEff A x s .factory ⟨f', ramOf o r'⟩ (outOf o)
  | apdu (i : In) (r : Ram) (hr : s.ram = some r) (o : Outcome Reply) (f' : Flash) (r' : Ram)
      (h : PEff A x i s.flash r o f' r') : SEff A x s (.apdu i) ⟨f', ramOf o r'⟩ (outOf o)

theorem step_eff (hx : x.Ok) {s : St} {op : Op} {env : Env} (henv : env.all A) :
    SEff A x s op (step x s op env).1 (step x s op env).2 := by
  obtain ⟨f, ram⟩ := s
  cases op with
  | boot =>
    have e : step x ⟨f, ram⟩ .boot env = exec (installOp false) f Ram.init env := by cases ram <;> rfl
    obtain ⟨o, f', r', h, he⟩ := exec_of_wp henv (boot_wp (A := A) (f := f) (r := Ram.init))
    rw [e, he]
    exact .boot o f' r' h
  | deselect =>
    cases ram with
    | none => exact .off _ rfl (by simp)
    | some r => exact .deselect r rfl
  | factory =>
    cases ram with
    | none => exact .off _ rfl (by simp)
    | some r =>
      have e : step x ⟨f, some r⟩ .factory env = exec (installOp true) f r env := rfl
      obtain ⟨o, f', r', h, he⟩ := exec_of_wp henv (factory_wp (A := A) (f := f) (r := r))
      rw [e, he]
      exact .factory r rfl o f' r' h
  | apdu i =>
    cases ram with
    | none => exact .off _ rfl (by simp)
    | some r =>
      have e : step x ⟨f, some r⟩ (.apdu i) env = exec (process x i) f r env := rfl
      obtain ⟨o, f', r', h, he⟩ := exec_of_wp henv (process_wp (A := A) (f := f) (r := r) (i := i) hx)
      rw [e, he]
      exact .apdu i r rfl o f' r' h

theorem anyAll {env : Env} : env.all anyFault := fun _ => trivial

/-- Induction over histories. -/
theorem run_inv {I : List Entry → St → Prop} {P : Op → Env → Prop}
    (hstep : ∀ s log op env, P op env → I log s → I ((s, op, (step x s op env).2) :: log) (step x s op env).1) :
    ∀ (h : List (Op × Env)) (s : St) (log : List Entry), (∀ e ∈ h, P e.1 e.2) → I log s →
      I (run x s log h).2 (run x s log h).1
  | [], _, _, _, hi => hi
  | (op, env) :: h, s, log, hp, hi => by
    unfold run
    exact run_inv hstep h _ _ (fun e he => hp e (List.mem_cons_of_mem _ he))
      (hstep s log op env (hp _ (List.mem_cons_self ..)) hi)

end Verif.Pgp
