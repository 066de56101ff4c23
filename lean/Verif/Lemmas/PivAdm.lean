import Verif.Lemmas.PivAuth
/-
Effects of the administrative PIV commands, of the installation, and of commands in general.
-/
set_option linter.unusedSimpArgs false
namespace Verif.Piv
open Cmd Verif.Spec.Piv Verif.KeyFile

variable {A : Fault → Prop} {x : Ext} {i : In} {f : Flash} {r : Ram}

/-! ### PUT DATA -/

/-- The outcomes of PUT DATA. -/
inductive PutEff (A : Fault → Prop) (c : Apdu.Capdu) (f : Flash) (r : Ram) : Outcome Reply → Flash → Ram → Prop
  | no (h : r.admin = false) : PutEff A c f r (.done (.sw 0x6982)) f r
  | bad (h : r.admin = true) (o : Outcome Reply) (hb : Bad o) : PutEff A c f r o f r
  | cut (h : A .cut) (r' : Ram) : PutEff A c f r .cut f r'
  | over (h : r.admin = true) (n : Nat) (hw : r.write = some n) (hl : n < c.data.length) :
      PutEff A c f r (.done (.sw 0x6700)) f { r with write := none, path := none }
  | appIo (h : r.admin = true) (hA : A .fail) (n : Nat) (hw : r.write = some n) (hl : c.data.length ≤ n) :
      PutEff A c f r (.done ioErr) f { r with write := some (n - c.data.length) }
  | app (h : r.admin = true) (n : Nat) (hw : r.write = some n) (hl : c.data.length ≤ n) (o : Obj)
      (hp : r.path = some o) (r' : Ram)
      (hr : r' = if c.cla &&& 0x10 = 0 then { r with write := none, path := none }
        else { r with write := some (n - c.data.length) }) :
      PutEff A c f r (.done (.sw 0x9000)) (f.setObj o ((f.objs o).getD [] ++ c.data)) r'
  | first (h : r.admin = true) (hw : r.write = none) (t : Byte) (d : Bytes)
      (hd : c.data = [0x5C, 3, 0x5F, 0xC1, t] ++ d) (o : Obj) (ho : objOf t = some o) (hl : d.length ≤ cap o) (r' : Ram)
      (hr : r' = if c.cla &&& 0x10 ≠ 0 ∧ d.length < cap o then { r with write := some (cap o - d.length), path := some o }
        else r) :
      PutEff A c f r (.done (.sw 0x9000)) (f.setObj o d) r'

theorem capOf_eq {t : Byte} {o : Obj} (h : objOf t = some o) : capOf t = cap o := by
  have : ∀ t : Byte, ∀ o, objOf t = some o → capOf t = cap o := by
    intro t o h
    unfold objOf at h
    repeat' split at h
    all_goals first
      | cases h
      | skip
    all_goals simp_all [capOf, cap]
  exact this t o h

theorem five {d : Bytes} {a b c e t : Byte} (h0 : d[0]? = some a) (h1 : d[1]? = some b) (h2 : d[2]? = some c)
    (h3 : d[3]? = some e) (h4 : d[4]? = some t) : d = [a, b, c, e, t] ++ d.drop 5 := by
  rcases d with _ | ⟨d0, _ | ⟨d1, _ | ⟨d2, _ | ⟨d3, _ | ⟨d4, d⟩⟩⟩⟩⟩ <;> simp at h0 h1 h2 h3 h4
  simp_all

theorem put_wp (c : Apdu.Capdu) :
    wp A (putData c) (fun a => PutEff A c f r (.done a)) (fun a => PutEff A c f r (.done a))
      (PutEff A c f r .cut) f r := by
  unfold putData needAdmin
  wps
  all_goals first
    | exact .no (by simp_all)
    | exact .bad (by simp_all) _ (bad_sw (by decide))
    | exact .bad (by simp_all) _ bad_io
    | exact .cut ‹_› _
    | skip
  · next h1 _ _ hw hlc d0 g0 e0 d1 g1 d2 g2 d3 g3 e1 t gt _ o ho hl f' hf hc =>
    cases hf
    have e0 : d0 = 0x5C := by simpa using e0
    simp only [Bool.or_eq_true, bne_iff_ne, ne_eq, not_or, Decidable.not_not] at e1
    obtain ⟨⟨rfl, rfl⟩, rfl⟩ := e1
    subst e0
    have hd := five g0 g1 g2 g3 gt
    rw [capOf_eq ho] at hl hc ⊢
    have hl' : c.lc - 5 = (c.data.drop 5).length := by simp [Apdu.Capdu.lc]
    rw [hl'] at hl hc ⊢
    refine .first (by simpa using h1) hw t _ hd o ho (by omega) _ ?_
    rw [if_pos (by simpa using hc)]
  · next h1 _ _ hw hlc d0 g0 e0 d1 g1 d2 g2 d3 g3 e1 t gt _ o ho hl f' hf hc =>
    cases hf
    have e0 : d0 = 0x5C := by simpa using e0
    simp only [Bool.or_eq_true, bne_iff_ne, ne_eq, not_or, Decidable.not_not] at e1
    obtain ⟨⟨rfl, rfl⟩, rfl⟩ := e1
    subst e0
    have hd := five g0 g1 g2 g3 gt
    rw [capOf_eq ho] at hl hc
    have hl' : c.lc - 5 = (c.data.drop 5).length := by simp [Apdu.Capdu.lc]
    rw [hl'] at hl hc
    refine .first (by simpa using h1) hw t _ hd o ho (by omega) _ ?_
    rw [if_neg (by simpa using hc)]
  · next h1 _ _ n hw _ o ho hl => exact .over (by simpa using h1) n hw hl
  · next h1 _ _ n hw _ o ho hl f' hf hc =>
    cases hf
    exact .app (by simpa using h1) n hw (by unfold Apdu.Capdu.lc at hl; omega) o ho _ (by rw [if_pos (by simpa using hc)])
  · next h1 _ _ n hw _ o ho hl f' hf hc =>
    cases hf
    exact .app (by simpa using h1) n hw (by unfold Apdu.Capdu.lc at hl; omega) o ho _ (by rw [if_neg (by simpa using hc)]; rfl)
  · next h => cases h
  · next h1 _ _ n hw _ o ho hl hA =>
    exact .appIo (by simpa using h1) hA n hw (by unfold Apdu.Capdu.lc at hl; omega)

/-! ### Keys and configuration -/

/-- Objects and PINs are unchanged. -/
structure AdmOnly (f f' : Flash) : Prop where
  objs : f'.objs = f.objs
  pin : f'.pin = f.pin
  pinDflt : f'.pinDflt = f.pinDflt
  puk : f'.puk = f.puk
  pukDflt : f'.pukDflt = f.pukDflt

theorem AdmOnly.rfl' : AdmOnly f f := ⟨rfl, rfl, rfl, rfl, rfl⟩
theorem AdmOnly.setKey {f f' : Flash} {s : Slot} {k : Option KeyFile} (h : AdmOnly f f') : AdmOnly f (f'.setKey s k) :=
  ⟨h.1, h.2, h.3, h.4, h.5⟩

/-- The outcomes of GENERATE, IMPORT, SET MANAGEMENT KEY and ALGORITHM EXTENSION. -/
inductive AdmEff (A : Fault → Prop) (f : Flash) (r : Ram) : Outcome Reply → Flash → Ram → Prop
  | bad (o : Outcome Reply) (hb : Bad o) : AdmEff A f r o f r
  | done (h : r.admin = true) (o : Reply) (f' : Flash) (hf : AdmOnly f f')
      (hm : f'.mgmt = f.mgmt) (a : Alg) : AdmEff A f r (.done o) f' { r with alg := a }
  | cut (hA : A .cut) (f' : Flash) (hf : f' = f ∨ r.admin = true ∧ AdmOnly f f' ∧ f'.mgmt = f.mgmt) (r' : Ram) :
      AdmEff A f r .cut f' r'

theorem writeKey_wp (s : Slot) (m : Key.KeyMat) (j : Meta) {Q : Unit → Flash → Ram → Prop} {E : Reply → Flash → Ram → Prop}
    {X : Flash → Ram → Prop}
    (hQ : ∀ f', AdmOnly f f' → f'.mgmt = f.mgmt → f' = f.setKey s (some ⟨m, some j⟩) → Q () f' r)
    (hE : A .fail → ∀ f', AdmOnly f f' → f'.mgmt = f.mgmt → E ioErr f' r)
    (hX : A .cut → ∀ f', AdmOnly f f' → f'.mgmt = f.mgmt → X f' r) :
    wp A (writeKey s m j) Q E X f r := by
  unfold writeKey
  apply wp_bind
  apply wp_wrOr
  · intro f1 h1
    cases h1
    apply wp_wrOr
    · intro f2 h2
      simp only [Flash.setKey, putMat, putInfo, if_true, Option.map_some, Option.some.injEq] at h2
      subst h2
      refine hQ _ ⟨rfl, rfl, rfl, rfl, rfl⟩ rfl ?_
      unfold Flash.setKey
      congr 1
      funext s'
      by_cases e : s' = s
      · simp [e, putMat]
      · simp [e]
    · intro h
      simp [Flash.setKey, putMat, putInfo] at h
    · exact fun h => hE h _ AdmOnly.rfl'.setKey rfl
    · exact fun h => hX h _ AdmOnly.rfl'.setKey rfl
  · intro h; cases h
  · exact fun h => hE h _ .rfl' rfl
  · exact fun h => hX h _ .rfl' rfl

/-- Closes the exits of administrative commands that change nothing. -/
macro "adm_bads" : tactic => `(tactic| first
  | exact .bad _ (bad_sw (by decide))
  | exact .bad _ bad_io
  | exact .bad _ (.inl ⟨_, rfl⟩)
  | exact .cut ‹_› _ (.inl rfl) _)

theorem generate_wp : wp A (generate x i) (fun a => AdmEff A f r (.done a)) (fun a => AdmEff A f r (.done a))
    (AdmEff A f r .cut) f r := by
  unfold generate needAdmin readKey
  wps
  all_goals try adm_bads
  next ha _ _ _ _ _ _ _ _ _ s hs j hj k hk _ _ _ _ _ g hg =>
  have ha : r.admin = true := by simpa using ha
  apply wp_mem
  · intro o ho
    cases o with
    | error e => exact wp_throw (.bad _ (bad_sw (by decide)))
    | ok key =>
      apply wp_bind
      apply writeKey_wp
      · intro f' h1 h2 _
        wps
        · exact .done ha _ _ h1 h2 r.alg
        · exact .done ha _ _ h1 h2 r.alg
      · exact fun _ f' h1 h2 => .done ha _ _ h1 h2 r.alg
      · exact fun h f' h1 h2 => .cut h _ (.inr ⟨ha, h1, h2⟩) _
  · exact fun u _ => .bad _ (.inl ⟨u, rfl⟩)

theorem import_wp : wp A (importKey x i.c) (fun a => AdmEff A f r (.done a)) (fun a => AdmEff A f r (.done a))
    (AdmEff A f r .cut) f r := by
  unfold importKey needAdmin readKey
  wps
  all_goals try adm_bads
  next ha _ s hs j hj k hk _ _ =>
  have ha : r.admin = true := by simpa using ha
  apply wp_mem
  · intro o ho
    rcases o with (_ | _ | _ | _) | key
    · exact wp_throw (.bad _ (bad_sw (by decide)))
    · exact wp_throw (.bad _ (bad_sw (by decide)))
    · exact wp_throw (.bad _ (bad_sw (by decide)))
    · exact wp_throw (.bad _ (bad_sw (by decide)))
    · apply wp_bind
      apply writeKey_wp
      · intro f' h1 h2 _
        exact wp_pure (.done ha _ _ h1 h2 r.alg)
      · exact fun _ f' h1 h2 => .done ha _ _ h1 h2 r.alg
      · exact fun h f' h1 h2 => .cut h _ (.inr ⟨ha, h1, h2⟩) _
  · exact fun u _ => .bad _ (.inl ⟨u, rfl⟩)

theorem algExt_wp (c : Apdu.Capdu) : wp A (algExt c) (fun a => AdmEff A f r (.done a)) (fun a => AdmEff A f r (.done a))
    (AdmEff A f r .cut) f r := by
  unfold algExt needAdmin
  wps
  all_goals try adm_bads
  · next ha _ _ _ _ _ => exact .done (by simpa using ha) _ _ .rfl' rfl r.alg
  · next ha _ _ _ _ _ _ _ _ _ _ _ _ _ f' h =>
    cases h
    refine AdmEff.done (f := f) ?_ _ _ ?_ ?_ _
    · simpa using ha
    · exact ⟨rfl, rfl, rfl, rfl, rfl⟩
    · rfl

/-- The outcomes of SET MANAGEMENT KEY. -/
inductive SetEff (A : Fault → Prop) (c : Apdu.Capdu) (f : Flash) (r : Ram) : Outcome Reply → Flash → Prop
  | bad (o : Outcome Reply) (hb : Bad o) : SetEff A c f r o f
  | cut (hA : A .cut) (f' : Flash)
      (hf : f' = f ∨ r.admin = true ∧
        f' = { f with mgmt := some { (f.mgmt.getD ⟨[], none, none⟩) with key := c.data.drop 3 } }) :
      SetEff A c f r .cut f'
  | half (ha : r.admin = true) (hA : A .fail) : SetEff A c f r (.done ioErr)
      { f with mgmt := some { (f.mgmt.getD ⟨[], none, none⟩) with key := c.data.drop 3 } }
  | done (ha : r.admin = true) (hl : c.data.length = 27) (hd : c.data.take 3 = [0x03, 0x9B, 24]) :
      SetEff A c f r (.done (.sw 0x9000))
      { f with mgmt := some ⟨c.data.drop 3, f.mgmt.bind (·.info), some (if c.data.drop 3 = defaultMgmt then 1 else 0)⟩ }

theorem setMgmt_wp (c : Apdu.Capdu) : wp A (setMgmt c) (fun a f' r' => SetEff A c f r (.done a) f' ∧ r' = r)
    (fun a f' r' => SetEff A c f r (.done a) f' ∧ r' = r) (fun f' r' => SetEff A c f r .cut f' ∧ r' = r) f r := by
  unfold setMgmt needAdmin
  wps
  all_goals first
    | exact ⟨.bad _ (bad_sw (by decide)), rfl⟩
    | exact ⟨.bad _ bad_io, rfl⟩
    | exact ⟨.cut ‹_› _ (.inl rfl), rfl⟩
    | skip
  · next hl d0 g0 d1 g1 d2 g2 hd ha f1 h1 f2 h2 =>
    cases h1
    simp only [Option.map_some, Option.some.injEq] at h2
    subst h2
    have hl : c.data.length = 27 := by simpa [Apdu.Capdu.lc] using hl
    simp only [Bool.or_eq_true, bne_iff_ne, ne_eq, not_or, Decidable.not_not] at hd
    obtain ⟨⟨rfl, rfl⟩, rfl⟩ := hd
    have ht : c.data.take 3 = [0x03, 0x9B, 24] := by
      generalize c.data = d at *
      rcases d with _ | ⟨a, _ | ⟨b, _ | ⟨e, d⟩⟩⟩ <;> simp at g0 g1 g2
      simp [g0, g1, g2]
    have := SetEff.done (A := A) (f := f) (by simpa using ha) hl ht
    refine ⟨?_, rfl⟩
    cases hm : f.mgmt <;> rw [hm] at this <;> exact this
  · next h1 h2 => cases h1; cases h2
  · next ha _ h1 hA => cases h1; exact ⟨.half (by simpa using ha) hA, rfl⟩
  · next ha _ h1 hA => cases h1; exact ⟨.cut hA _ (.inr ⟨by simpa using ha, rfl⟩), rfl⟩

/-! ### Installation -/

/-- What every write of the installation keeps. -/
structure Inst (f f' : Flash) : Prop where
  fits : Fits f → Fits f'

theorem Inst.rfl' : Inst f f := ⟨id⟩
theorem Inst.trans {f g h : Flash} (h1 : Inst f g) (h2 : Inst g h) : Inst f h := ⟨h2.1 ∘ h1.1⟩
theorem Inst.same {f f' : Flash} (h : f'.objs = f.objs) : Inst f f' := ⟨fun hf o d => by rw [h]; exact hf o d⟩
theorem Inst.obj {o : Obj} {d : Bytes} (h : d.length ≤ cap o) : Inst f (f.setObj o d) := by
  refine ⟨fun hf o' d' => ?_⟩
  simp only [Flash.setObj]
  split
  · next e => subst e; intro e; cases e; exact h
  · exact hf o' d'

theorem writeObjs_wp : ∀ (l : List (Obj × Bytes)) (_ : ∀ p ∈ l, p.2.length ≤ cap p.1) (f : Flash),
    wp A (writeObjs l) (fun _ f' r' => Inst f f' ∧ r' = r ∧ f' = l.foldl (fun f p => f.setObj p.1 p.2) f)
      (fun _ f' r' => Inst f f' ∧ r' = r ∧ A .fail) (fun f' r' => Inst f f' ∧ A .cut) f r := by
  intro l
  induction l with
  | nil => exact fun _ f => wp_pure ⟨.rfl', rfl, rfl⟩
  | cons p l ih =>
    intro hl f
    obtain ⟨o, d⟩ := p
    unfold writeObjs
    have hd : Inst f (f.setObj o d) := .obj (hl (o, d) (by simp))
    apply wp_bind
    apply wp_wrOr
    · intro f' h
      cases h
      refine wp_mono (ih (fun p hp => hl p (by simp [hp])) _) ?_ ?_ ?_
      · exact fun _ _ _ h => ⟨hd.trans h.1, h.2⟩
      · exact fun _ _ _ h => ⟨hd.trans h.1, h.2⟩
      · exact fun _ _ h => ⟨hd.trans h.1, h.2⟩
    · intro h; cases h
    · exact fun h => ⟨.rfl', rfl, h⟩
    · exact fun h => ⟨.rfl', h⟩

theorem createKeys_wp : ∀ (l : List (Slot × Byte × Byte)) (f : Flash),
    wp A (createKeys l) (fun _ f' r' => Inst f f' ∧ r' = r ∧
        f' = l.foldl (fun f p => f.setKey p.1 (some ⟨zeroMat, some ⟨.none, 0, p.2.1, p.2.2, 1⟩⟩)) f)
      (fun _ f' r' => Inst f f' ∧ r' = r ∧ A .fail) (fun f' r' => Inst f f' ∧ A .cut) f r := by
  intro l
  induction l with
  | nil => exact fun f => wp_pure ⟨.rfl', rfl, rfl⟩
  | cons p l ih =>
    intro f
    obtain ⟨s, u, q⟩ := p
    unfold createKeys
    apply wp_bind
    apply writeKey_wp
    · intro f' h _ e
      have hd : Inst f f' := .same h.objs
      subst e
      refine wp_mono (ih _) ?_ ?_ ?_
      · exact fun _ _ _ h => ⟨hd.trans h.1, h.2⟩
      · exact fun _ _ _ h => ⟨hd.trans h.1, h.2⟩
      · exact fun _ _ h => ⟨hd.trans h.1, h.2⟩
    · exact fun hA f' h _ => ⟨.same h.objs, rfl, hA⟩
    · exact fun hA f' h _ => ⟨.same h.objs, hA⟩

theorem initObjs_fits {rnd : Nat → Byte} : ∀ p ∈ initObjs rnd, p.2.length ≤ cap p.1 := by
  intro p hp
  simp only [initObjs, List.mem_cons, List.not_mem_nil, or_false] at hp
  rcases hp with h | h | h | h | h | h | h | h | h | h | h <;> subst h <;> simp [cap, cccTpl, chuidTpl]

/-- The management key as `installMgmt` leaves it. -/
def freshMgmt : Mgmt := ⟨defaultMgmt, some mgmtMeta, some 1⟩

theorem installMgmt_wp : wp A installMgmt (fun _ f' r' => f' = { f with mgmt := some freshMgmt } ∧ r' = r)
    (fun _ f' r' => A .fail ∧ f'.objs = f.objs ∧ r' = r) (fun f' r' => f'.objs = f.objs ∧ A .cut) f r := by
  unfold installMgmt
  apply wp_bind
  apply wp_wrOr
  · intro f' h
    cases h
    apply wp_bind
    apply wp_wrOr
    · intro f' h
      cases h
      apply wp_wrOr
      · intro f' h
        cases h
        exact ⟨rfl, rfl⟩
      · intro h; cases h
      · exact fun h => ⟨h, rfl, rfl⟩
      · exact fun h => ⟨rfl, h⟩
    · intro h; cases h
    · exact fun h => ⟨h, rfl, rfl⟩
    · exact fun h => ⟨rfl, h⟩
  · intro h; cases h
  · exact fun h => ⟨h, rfl, rfl⟩
  · exact fun h => ⟨rfl, h⟩

theorem installPins_wp : wp A installPins
    (fun _ f' r' => f' = { f with pin := some ⟨defaultPin, some 3, some 3⟩, pinDflt := some 1,
                                  puk := some ⟨defaultPuk, some 3, some 3⟩, pukDflt := some 1 } ∧ r' = r)
    (fun _ f' r' => A .fail ∧ f'.objs = f.objs ∧ r' = r) (fun f' r' => f'.objs = f.objs ∧ A .cut) f r := by
  unfold installPins
  apply wp_bind
  apply wp_onPin Pin.create_wp
  · rintro rc p q ⟨h, rfl⟩
    rw [set_get_R]
    cases h with
    | io p hA hp => exact wp_throw ⟨hA, rfl, rfl⟩
    | done =>
      wzeta
      rw [if_neg (by decide)]
      wzeta
      apply wp_bind
      apply wp_wrOr
      · intro f' h
        cases h
        apply wp_bind
        apply wp_onPin Pin.create_wp
        · rintro rc p q ⟨h, rfl⟩
          rw [set_get_R]
          cases h with
          | io p hA hp => exact wp_throw ⟨hA, rfl, rfl⟩
          | done =>
            wzeta
            rw [if_neg (by decide)]
            wzeta
            apply wp_wrOr
            · intro f' h
              cases h
              exact ⟨rfl, rfl⟩
            · intro h; cases h
            · exact fun h => ⟨h, rfl, rfl⟩
            · exact fun h => ⟨rfl, h⟩
        · rintro p q ⟨h, rfl, _⟩
          exact ⟨rfl, h⟩
      · intro h; cases h
      · exact fun h => ⟨h, rfl, rfl⟩
      · exact fun h => ⟨rfl, h⟩
  · rintro p q ⟨h, rfl, _⟩
    exact ⟨rfl, h⟩

/-- What an installation does. -/
structure InstAll (A : Fault → Prop) (rnd : Nat → Byte) (f : Flash) (r : Ram) (f' : Flash) (r' : Ram) : Prop where
  inst : Inst f f'
  exact : A .fail ∨ f' = factory rnd f.alg
  ram : ∃ a, r' = { r with alg := a }

theorem factory_eq {rnd : Nat → Byte} :
    ({ (initKeys.foldl (fun f p => f.setKey p.1 (some ⟨zeroMat, some ⟨.none, 0, p.2.1, p.2.2, 1⟩⟩))
        ((initObjs rnd).foldl (fun f p => f.setObj p.1 p.2) f)) with
        mgmt := some freshMgmt, pin := some ⟨defaultPin, some 3, some 3⟩, pinDflt := some 1,
        puk := some ⟨defaultPuk, some 3, some 3⟩, pukDflt := some 1, alg := some (f.alg.getD defaultAlg) } : Flash)
      = factory rnd f.alg := by
  simp only [factory, Flash.mk.injEq]
  refine ⟨?_, ?_, rfl, rfl, trivial, rfl, trivial, rfl⟩
  · funext o; cases o <;> rfl
  · funext s; cases s <;> rfl

theorem installAll_wp (rnd : Nat → Byte) : wp A (installAll rnd)
    (fun _ f' r' => InstAll A rnd f r f' r' ∧ ∃ a, f' = factory rnd a)
    (fun _ => InstAll A rnd f r) (fun f' _ => Inst f f' ∧ A .cut) f r := by
  have ra : ∃ a, r = { r with alg := a } := ⟨r.alg, rfl⟩
  unfold installAll
  apply wp_bind
  refine wp_mono (writeObjs_wp _ initObjs_fits _) ?_ ?_ ?_
  · rintro _ f1 r1 ⟨h1, rfl, e1⟩
    apply wp_bind
    refine wp_mono (createKeys_wp _ _) ?_ ?_ ?_
    · rintro _ f2 r2 ⟨h2, rfl, e2⟩
      have h2 := h1.trans h2
      apply wp_bind
      refine wp_mono installMgmt_wp ?_ ?_ ?_
      · rintro _ f3 r3 ⟨e3, rfl⟩
        have h3 : Inst f f3 := h2.trans (.same (by rw [e3]))
        apply wp_bind
        refine wp_mono installPins_wp ?_ ?_ ?_
        · rintro _ f4 r4 ⟨e4, rfl⟩
          have h4 : Inst f f4 := h3.trans (.same (by rw [e4]))
          have ea : f4.alg = f.alg := by
            rw [e4, e3, e2, e1]; rfl
          have ef : { f4 with alg := some (f.alg.getD defaultAlg) } = factory rnd f.alg := by
            rw [← factory_eq, e4, e3, e2, e1]
          apply wp_bind
          apply wp_rdF
          · intro _
            rw [ea]
            apply wp_ite <;> intro hs
            · have e5 : f4 = factory rnd f.alg := by
                rw [← ef]
                obtain ⟨a, ha⟩ := Option.isSome_iff_exists.mp hs
                rw [ha] at ea ⊢
                cases f4; simp_all
              exact wp_pure ⟨⟨h4, .inr e5, ra⟩, _, e5⟩
            · apply wp_bind; apply wp_mod
              have hn : f.alg = none := by simpa using hs
              apply wp_wrOr
              · intro f5 h5
                cases h5
                have e5 : ({ f4 with alg := some defaultAlg } : Flash) = factory rnd f.alg := by rw [← ef, hn]; rfl
                exact ⟨⟨h4.trans (.same rfl), .inr e5, _, rfl⟩, _, e5⟩
              · intro h; cases h
              · exact fun hA => ⟨h4, .inl hA, _, rfl⟩
              · exact fun h => ⟨h4, h⟩
          · intro hA
            apply wp_ite <;> intro hs
            · exact absurd hs (by simp)
            · apply wp_bind; apply wp_mod
              apply wp_wrOr
              · intro f5 h5
                cases h5
                have e5 : ({ f4 with alg := some defaultAlg } : Flash) = factory rnd none := by
                  have : factory rnd none = { factory rnd f.alg with alg := some defaultAlg } := rfl
                  rw [this, ← ef]
                exact ⟨⟨h4.trans (.same rfl), .inl hA, _, rfl⟩, _, e5⟩
              · intro h; cases h
              · exact fun hA => ⟨h4, .inl hA, _, rfl⟩
              · exact fun h => ⟨h4, h⟩
          · exact fun h => ⟨h4, h⟩
        · exact fun _ f' r' h => ⟨h3.trans (.same h.2.1), .inl h.1, by rw [h.2.2]; exact ra⟩
        · exact fun f' r' h => ⟨h3.trans (.same h.1), h.2⟩
      · exact fun _ f' r' h => ⟨h2.trans (.same h.2.1), .inl h.1, by rw [h.2.2]; exact ra⟩
      · exact fun f' r' h => ⟨h2.trans (.same h.1), h.2⟩
    · exact fun _ f' r' h => ⟨h1.trans h.1, .inl h.2.2, by rw [h.2.1]; exact ra⟩
    · exact fun f' r' h => ⟨h1.trans h.1, h.2⟩
  · exact fun _ f' r' h => ⟨h.1, .inl h.2.2, by rw [h.2.1]; exact ra⟩
  · exact fun f' r' h => h

/-- What `piv_install` does. -/
structure InstEff (A : Fault → Prop) (reset : Bool) (rnd : Nat → Byte) (f : Flash) (r : Ram) (f' : Flash) (r' : Ram) :
    Prop where
  inst : Inst f f'
  onReset : reset = true → A .fail ∨ f' = factory rnd f.alg
  onBoot : reset = false → A .fail ∨ f' = if f.alg.isSome then f else factory rnd none
  ram : ∃ a, r' = { poweroff r with alg := a }

theorem install_wp (reset : Bool) (rnd : Nat → Byte) : wp A (install reset rnd)
    (fun _ f' r' => InstEff A reset rnd f r f' r' ∧ (reset = true → ∃ a, f' = factory rnd a))
    (fun _ => InstEff A reset rnd f r) (fun f' _ => Inst f f' ∧ A .cut) f r := by
  unfold install
  apply wp_bind; apply wp_mod
  cases reset with
  | true =>
    rw [if_pos rfl]
    refine wp_mono (installAll_wp rnd) ?_ ?_ (fun _ _ h => h)
    · exact fun _ _ _ ⟨h, h'⟩ => ⟨⟨h.inst, fun _ => h.exact, fun e => by (cases e), h.ram⟩, fun _ => h'⟩
    · exact fun _ _ _ h => ⟨h.inst, fun _ => h.exact, fun e => by (cases e), h.ram⟩
  | false =>
    rw [if_neg (by decide)]
    apply wp_bind
    apply wp_rdF
    · intro _
      apply wp_ite <;> intro hs
      · apply wp_bind
        have e : f = if f.alg.isSome then f else factory rnd none := by rw [if_pos hs]
        apply wp_rdOr
        · intro a _
          exact wp_mod ⟨⟨.rfl', fun e => by (cases e), fun _ => .inr e, a, rfl⟩, fun e => by (cases e)⟩
        · exact fun _ => ⟨.rfl', fun e => by (cases e), fun _ => .inr e, r.alg, rfl⟩
        · exact fun _ => ⟨.rfl', fun e => by (cases e), fun _ => .inr e, r.alg, rfl⟩
        · exact fun h => ⟨.rfl', h⟩
      · have hn : f.alg = none := by simpa using hs
        have e : ∀ f', f' = factory rnd f.alg → f' = if f.alg.isSome then f else factory rnd none := by
          intro f' h; rw [h, hn]; rfl
        refine wp_mono (installAll_wp rnd) ?_ ?_ (fun _ _ h => h)
        · exact fun _ _ _ ⟨h, _⟩ =>
            ⟨⟨h.inst, fun e => by (cases e), fun _ => h.exact.imp_right (e _), h.ram⟩, fun e => by (cases e)⟩
        · exact fun _ _ _ h => ⟨h.inst, fun e => by (cases e), fun _ => h.exact.imp_right (e _), h.ram⟩
    · intro hA
      apply wp_ite <;> intro hs
      · exact absurd hs (by simp)
      · refine wp_mono (installAll_wp rnd) ?_ ?_ (fun _ _ h => h)
        · exact fun _ _ _ ⟨h, _⟩ =>
            ⟨⟨h.inst, fun e => by (cases e), fun _ => .inl hA, h.ram⟩, fun e => by (cases e)⟩
        · exact fun _ _ _ h => ⟨h.inst, fun e => by (cases e), fun _ => .inl hA, h.ram⟩
    · exact fun h => ⟨.rfl', h⟩

/-- The outcomes of RESET. -/
inductive ResEff (A : Fault → Prop) (i : In) (f : Flash) (r : Ram) : Outcome Reply → Flash → Ram → Prop
  | bad (o : Outcome Reply) (hb : Bad o)
      (hn : i.c.p1 ≠ 0 ∨ i.c.p2 ≠ 0 ∨ i.c.data ≠ [] ∨ (∃ n, Pin.RetEff A f.pin n ∧ n.getD 0 ≠ 0) ∨
        ∃ n, Pin.RetEff A f.puk n ∧ n.getD 0 ≠ 0) : ResEff A i f r o f r
  | cut (hA : A .cut) (f' : Flash) (hf : Inst f f')
      (hb : f' = f ∨ ∃ n m, Pin.RetEff A f.pin n ∧ n.getD 0 = 0 ∧ Pin.RetEff A f.puk m ∧ m.getD 0 = 0) (r' : Ram) :
      ResEff A i f r .cut f' r'
  | done (n m : Option Nat) (hn : Pin.RetEff A f.pin n) (hn0 : n.getD 0 = 0) (hm : Pin.RetEff A f.puk m)
      (hm0 : m.getD 0 = 0) (f' : Flash) (r' : Ram) (hf : InstEff A true i.rnd f r f' r') :
      ResEff A i f r (.done (.sw 0x9000)) f' r'

theorem reset_wp : wp A (resetCmd i) (fun a => ResEff A i f r (.done a)) (fun a => ResEff A i f r (.done a))
    (ResEff A i f r .cut) f r := by
  unfold resetCmd
  wps
  · next h =>
    refine .bad _ (bad_sw (by decide)) ?_
    simp only [Bool.or_eq_true, bne_iff_ne, ne_eq] at h
    exact h.elim .inl (.inr ∘ .inl)
  · next h =>
    refine .bad _ (bad_sw (by decide)) (.inr (.inr (.inl ?_)))
    intro e
    simp [Apdu.Capdu.lc, e] at h
  apply wp_onPin Pin.getRetries_wp
  · rintro n p q ⟨hn, rfl, rfl⟩
    rw [set_get_F, set_get_R]
    wps
    · next h => exact .bad _ (bad_sw (by decide)) (.inr (.inr (.inr (.inl ⟨n, hn, by omega⟩))))
    · next hn0 =>
      apply wp_onPin Pin.getRetries_wp
      · rintro m p q ⟨hm, rfl, rfl⟩
        rw [set_get_F, set_get_R]
        wps
        · next h => exact .bad _ (bad_sw (by decide)) (.inr (.inr (.inr (.inr ⟨m, hm, by omega⟩))))
        · next hm0 =>
          apply wp_run
          refine wp_mono (install_wp true i.rnd) ?_ ?_ ?_
          · exact fun _ f' r' h => wp_pure (.done n m hn (by omega) hm (by omega) f' r' h.1)
          · exact fun _ f' r' h => wp_pure (.done n m hn (by omega) hm (by omega) f' r' h)
          · exact fun f' r' h => .cut h.2 _ h.1 (.inr ⟨n, m, hn, by omega, hm, by omega⟩) _
      · rintro p q ⟨h, rfl, rfl⟩
        rw [set_get_F, set_get_R]
        exact .cut h _ .rfl' (.inl rfl) _
  · rintro p q ⟨h, rfl, rfl⟩
    rw [set_get_F, set_get_R]
    exact .cut h _ .rfl' (.inl rfl) _

/-! ### All commands -/

/-- The variables with which a command starts. -/
def pre (c : Apdu.Capdu) (r : Ram) : Ram :=
  { r with write := if c.ins = 0xDB then r.write else none, read := if c.ins = 0xC0 then r.read else none }

/-- The outcomes of a command. -/
inductive PEff (A : Fault → Prop) (x : Ext) (i : In) (f : Flash) (r : Ram) : Outcome Reply → Flash → Ram → Prop
  | cla (h : ¬(i.c.cla = 0 ∨ i.c.cla = 0x10 ∧ i.c.ins = 0xDB)) : PEff A x i f r (.done (.sw 0x6E00)) f r
  | sel (h : i.c.ins = 0xA4) (o : Outcome Reply) (r' : Ram) (he : SelEff (pre i.c r) o r') : PEff A x i f r o f r'
  | get (h : i.c.ins = 0xCB ∨ i.c.ins = 0xC0) (o : Outcome Reply) (r' : Ram) (he : GetEff A f (pre i.c r) o r') :
      PEff A x i f r o f r'
  | verify (h : i.c.ins = 0x20) (o : Outcome Reply) (f' : Flash) (r' : Ram) (he : VerifyEff A i f (pre i.c r) o f' r') :
      PEff A x i f r o f' r'
  | chg (h : i.c.ins = 0x24) (o : Outcome Reply) (f' : Flash) (r' : Ram) (he : ChgEff A i f (pre i.c r) o f' r') :
      PEff A x i f r o f' r'
  | rrc (h : i.c.ins = 0x2C) (o : Outcome Reply) (f' : Flash) (r' : Ram) (he : RrcEff A i f (pre i.c r) o f' r') :
      PEff A x i f r o f' r'
  | ga (h : i.c.ins = 0x87) (o : Outcome Reply) (r' : Ram) (he : GAEff A x i f (pre i.c r) o r') : PEff A x i f r o f r'
  | put (h : i.c.ins = 0xDB) (o : Outcome Reply) (f' : Flash) (r' : Ram) (he : PutEff A i.c f (pre i.c r) o f' r') :
      PEff A x i f r o f' r'
  | adm (h : i.c.ins = 0x47 ∨ i.c.ins = 0xFE ∨ i.c.ins = 0xEE) (o : Outcome Reply) (f' : Flash) (r' : Ram)
      (he : AdmEff A f (pre i.c r) o f' r') : PEff A x i f r o f' r'
  | set (h : i.c.ins = 0xFF) (o : Outcome Reply) (f' : Flash) (he : SetEff A i.c f (pre i.c r) o f') :
      PEff A x i f r o f' (pre i.c r)
  | reset (h : i.c.ins = 0xFB) (o : Outcome Reply) (f' : Flash) (r' : Ram) (he : ResEff A i f (pre i.c r) o f' r') :
      PEff A x i f r o f' r'
  | info (h : i.c.ins ∉ [0xA4, 0xCB, 0xC0, 0x20, 0x24, 0x2C, 0x87, 0xDB, 0x47, 0xFF, 0xFB, 0xFE, 0xEE]) (a : Reply) : PEff A x i f r (.done a) f (pre i.c r)
  | cut (hA : A .cut) (r' : Ram) : PEff A x i f r .cut f r'

theorem Pin.rdDflt_wp {f : Pin.Flash} {r : Pin.Ram} {E : Reply → Pin.Flash → Pin.Ram → Prop} :
    wp A (Cmd.lift Pin.rdDflt : Cmd Pin.Flash Pin.Ram Reply _) (fun _ f' r' => f' = f ∧ r' = r) E
      (fun f' r' => A .cut ∧ f' = f ∧ r' = r) f r := by
  unfold Pin.rdDflt
  rw [Pin.lift_read]
  apply wp_rdF
  · exact fun _ => ⟨rfl, rfl⟩
  · exact fun _ => ⟨rfl, rfl⟩
  · exact fun h => ⟨h, rfl, rfl⟩

theorem getInfo_wp (c : Apdu.Capdu) (d : Bytes) : wp A (getInfo c d) (fun _ f' r' => f' = f ∧ r' = r)
    (fun _ f' r' => f' = f ∧ r' = r) (fun _ _ => False) f r := by
  unfold getInfo
  wps
  all_goals exact ⟨rfl, rfl⟩

theorem getMetadata_wp (c : Apdu.Capdu) : wp A (getMetadata x c) (fun _ f' r' => f' = f ∧ r' = r)
    (fun _ f' r' => f' = f ∧ r' = r) (fun f' r' => A .cut ∧ f' = f ∧ r' = r) f r := by
  unfold getMetadata readKey defaultRetries
  wps
  all_goals try exact ⟨rfl, rfl⟩
  all_goals try exact ⟨‹_›, rfl, rfl⟩
  all_goals
    apply wp_onPin (Pin.rdDflt_wp)
    · rintro a p q ⟨rfl, rfl⟩
      rw [set_get_F, set_get_R]
      wps
      all_goals
        apply wp_onPin Pin.getRetries_wp
        · rintro n p q ⟨_, rfl, rfl⟩
          rw [set_get_F, set_get_R]
          wps
          all_goals exact ⟨rfl, rfl⟩
        · rintro p q ⟨h, rfl, rfl⟩
          rw [set_get_F, set_get_R]
          exact ⟨h, rfl, rfl⟩
    · rintro p q ⟨h, rfl, rfl⟩
      rw [set_get_F, set_get_R]
      exact ⟨h, rfl, rfl⟩

theorem dispatch_wp (hx : x.Ok) (hr : pre i.c r = r) : wp A (dispatch x i) (fun a => PEff A x i f r (.done a))
    (fun a => PEff A x i f r (.done a)) (PEff A x i f r .cut) f r := by
  unfold dispatch
  apply wp_ite <;> intro h1
  · refine wp_mono (select_wp i.c) ?_ ?_ ?_
    · rintro a f' r' ⟨h, rfl⟩; exact .sel (by simpa using h1) _ _ (by rw [hr]; exact h)
    · rintro a f' r' ⟨h, rfl⟩; exact .sel (by simpa using h1) _ _ (by rw [hr]; exact h)
    · exact fun _ _ h => h.elim
  apply wp_ite <;> intro h2
  · refine wp_mono (getData_wp i.c) ?_ ?_ ?_
    · rintro a f' r' ⟨h, rfl⟩; exact .get (by simp_all) _ _ (by rw [hr]; exact h)
    · rintro a f' r' ⟨h, rfl⟩; exact .get (by simp_all) _ _ (by rw [hr]; exact h)
    · rintro f' r' ⟨h, rfl⟩; exact .get (by simp_all) _ _ (by rw [hr]; exact h)
  apply wp_ite <;> intro h3
  · refine wp_mono (getResp_wp i.c) ?_ ?_ ?_
    · rintro a f' r' ⟨h, rfl⟩; exact .get (by simp_all) _ _ (by rw [hr]; exact h)
    · rintro a f' r' ⟨h, rfl⟩; exact .get (by simp_all) _ _ (by rw [hr]; exact h)
    · rintro f' r' ⟨h, rfl⟩; exact .get (by simp_all) _ _ (by rw [hr]; exact h)
  apply wp_ite <;> intro h4
  · refine wp_mono (verify_wp hx) ?_ ?_ ?_
    · intro a f' r' h; exact .verify (by simp_all) _ _ _ (by rw [hr]; exact h)
    · intro a f' r' h; exact .verify (by simp_all) _ _ _ (by rw [hr]; exact h)
    · intro f' r' h; exact .verify (by simp_all) _ _ _ (by rw [hr]; exact h)
  apply wp_ite <;> intro h5
  · refine wp_mono (change_wp hx) ?_ ?_ ?_
    · intro a f' r' h; exact .chg (by simp_all) _ _ _ (by rw [hr]; exact h)
    · intro a f' r' h; exact .chg (by simp_all) _ _ _ (by rw [hr]; exact h)
    · intro f' r' h; exact .chg (by simp_all) _ _ _ (by rw [hr]; exact h)
  apply wp_ite <;> intro h6
  · refine wp_mono (rrc_wp hx) ?_ ?_ ?_
    · intro a f' r' h; exact .rrc (by simp_all) _ _ _ (by rw [hr]; exact h)
    · intro a f' r' h; exact .rrc (by simp_all) _ _ _ (by rw [hr]; exact h)
    · intro f' r' h; exact .rrc (by simp_all) _ _ _ (by rw [hr]; exact h)
  apply wp_ite <;> intro h7
  · refine wp_mono (genAuth_wp hx) ?_ ?_ ?_
    · rintro a f' r' ⟨h, rfl⟩; exact .ga (by simp_all) _ _ (by rw [hr]; exact h)
    · rintro a f' r' ⟨h, rfl⟩; exact .ga (by simp_all) _ _ (by rw [hr]; exact h)
    · rintro f' r' ⟨h, rfl⟩; exact .ga (by simp_all) _ _ (by rw [hr]; exact h)
  apply wp_ite <;> intro h8
  · refine wp_mono (put_wp i.c) ?_ ?_ ?_
    · intro a f' r' h; exact .put (by simp_all) _ _ _ (by rw [hr]; exact h)
    · intro a f' r' h; exact .put (by simp_all) _ _ _ (by rw [hr]; exact h)
    · intro f' r' h; exact .put (by simp_all) _ _ _ (by rw [hr]; exact h)
  apply wp_ite <;> intro h9
  · refine wp_mono generate_wp ?_ ?_ ?_
    · intro a f' r' h; exact .adm (by simp_all) _ _ _ (by rw [hr]; exact h)
    · intro a f' r' h; exact .adm (by simp_all) _ _ _ (by rw [hr]; exact h)
    · intro f' r' h; exact .adm (by simp_all) _ _ _ (by rw [hr]; exact h)
  apply wp_ite <;> intro h10
  · refine wp_mono (setMgmt_wp i.c) ?_ ?_ ?_
    · rintro a f' r' ⟨h, rfl⟩
      have := PEff.set (A := A) (x := x) (by simp_all) _ _ (hr.symm ▸ h)
      rwa [hr] at this
    · rintro a f' r' ⟨h, rfl⟩
      have := PEff.set (A := A) (x := x) (by simp_all) _ _ (hr.symm ▸ h)
      rwa [hr] at this
    · rintro f' r' ⟨h, rfl⟩
      have := PEff.set (A := A) (x := x) (by simp_all) _ _ (hr.symm ▸ h)
      rwa [hr] at this
  apply wp_ite <;> intro h11
  · refine wp_mono reset_wp ?_ ?_ ?_
    · intro a f' r' h; exact .reset (by simp_all) _ _ _ (by rw [hr]; exact h)
    · intro a f' r' h; exact .reset (by simp_all) _ _ _ (by rw [hr]; exact h)
    · intro f' r' h; exact .reset (by simp_all) _ _ _ (by rw [hr]; exact h)
  apply wp_ite <;> intro h12
  · refine wp_mono import_wp ?_ ?_ ?_
    · intro a f' r' h; exact .adm (by simp_all) _ _ _ (by rw [hr]; exact h)
    · intro a f' r' h; exact .adm (by simp_all) _ _ _ (by rw [hr]; exact h)
    · intro f' r' h; exact .adm (by simp_all) _ _ _ (by rw [hr]; exact h)
  have inf : i.c.ins ≠ 0xEE → ∀ a, PEff A x i f r (.done a) f r := fun he a => by
    have hi : i.c.ins ∉ [0xA4, 0xCB, 0xC0, 0x20, 0x24, 0x2C, 0x87, 0xDB, 0x47, 0xFF, 0xFB, 0xFE, 0xEE] := by
      simp only [beq_iff_eq] at *
      simp only [List.mem_cons, List.not_mem_nil, or_false, not_or]
      exact ⟨‹_›, ‹_›, ‹_›, ‹_›, ‹_›, ‹_›, ‹_›, ‹_›, ‹_›, ‹_›, ‹_›, ‹_›, he⟩
    have := PEff.info (A := A) (x := x) (f := f) (r := r) hi a
    rwa [hr] at this
  apply wp_ite <;> intro h13
  · refine wp_mono (getInfo_wp i.c _) ?_ ?_ ?_
    · rintro a f' r' ⟨rfl, rfl⟩; exact inf (by simp_all) _
    · rintro a f' r' ⟨rfl, rfl⟩; exact inf (by simp_all) _
    · exact fun _ _ h => h.elim
  apply wp_ite <;> intro h14
  · refine wp_mono (getInfo_wp i.c _) ?_ ?_ ?_
    · rintro a f' r' ⟨rfl, rfl⟩; exact inf (by simp_all) _
    · rintro a f' r' ⟨rfl, rfl⟩; exact inf (by simp_all) _
    · exact fun _ _ h => h.elim
  apply wp_ite <;> intro h15
  · refine wp_mono (getMetadata_wp i.c) ?_ ?_ ?_
    · rintro a f' r' ⟨rfl, rfl⟩; exact inf (by simp_all) _
    · rintro a f' r' ⟨rfl, rfl⟩; exact inf (by simp_all) _
    · rintro f' r' ⟨h, rfl, rfl⟩; exact .cut h _
  apply wp_ite <;> intro h16
  · refine wp_mono (algExt_wp i.c) ?_ ?_ ?_
    · intro a f' r' h; exact .adm (by simp_all) _ _ _ (by rw [hr]; exact h)
    · intro a f' r' h; exact .adm (by simp_all) _ _ _ (by rw [hr]; exact h)
    · intro f' r' h; exact .adm (by simp_all) _ _ _ (by rw [hr]; exact h)
  exact wp_throw (inf (by simp_all) _)

theorem pre_pre {c : Apdu.Capdu} : pre c (pre c r) = pre c r := by
  unfold pre
  by_cases h : c.ins = 0xDB
  · simp [h]
  · by_cases h' : c.ins = 0xC0 <;> simp [h, h']

/-- The effects of a command do not depend on what `pre` clears, except when the class is not supported. -/
theorem PEff.of_pre {o : Outcome Reply} {f' : Flash} {r' : Ram} (hc : i.c.cla = 0 ∨ i.c.cla = 0x10 ∧ i.c.ins = 0xDB)
    (h : PEff A x i f (pre i.c r) o f' r') : PEff A x i f r o f' r' := by
  cases h with
  | cla h => exact absurd hc h
  | sel h o r' he => exact .sel h _ _ (by rwa [pre_pre] at he)
  | get h o r' he => exact .get h _ _ (by rwa [pre_pre] at he)
  | verify h o f' r' he => exact .verify h _ _ _ (by rwa [pre_pre] at he)
  | chg h o f' r' he => exact .chg h _ _ _ (by rwa [pre_pre] at he)
  | rrc h o f' r' he => exact .rrc h _ _ _ (by rwa [pre_pre] at he)
  | ga h o r' he => exact .ga h _ _ (by rwa [pre_pre] at he)
  | put h o f' r' he => exact .put h _ _ _ (by rwa [pre_pre] at he)
  | adm h o f' r' he => exact .adm h _ _ _ (by rwa [pre_pre] at he)
  | set h o f' he => rw [pre_pre] at he ⊢; exact .set h _ _ he
  | reset h o f' r' he => exact .reset h _ _ _ (by rwa [pre_pre] at he)
  | info h a => rw [pre_pre]; exact .info h a
  | cut hA r' => exact .cut hA _

theorem process_wp (hx : x.Ok) : wp A (process x i) (fun a => PEff A x i f r (.done a))
    (fun a => PEff A x i f r (.done a)) (PEff A x i f r .cut) f r := by
  unfold process
  apply wp_ite <;> intro hc
  · refine wp_throw (.cla ?_)
    simp only [Bool.not_eq_true', Bool.or_eq_false_iff, Bool.and_eq_false_iff, beq_eq_false_iff_ne] at hc
    rintro (h | ⟨h, h'⟩)
    · exact hc.1 h
    · exact hc.2.elim (· h) (· h')
  have hc' : i.c.cla = 0 ∨ i.c.cla = 0x10 ∧ i.c.ins = 0xDB := by
    simp only [Bool.not_eq_true, Bool.not_eq_false', Bool.or_eq_true, Bool.and_eq_true, beq_iff_eq] at hc
    exact hc
  have key : wp A (dispatch x i) (fun a => PEff A x i f r (.done a))
    (fun a => PEff A x i f r (.done a)) (PEff A x i f r .cut) f (pre i.c r) :=
    wp_mono (dispatch_wp hx pre_pre) (fun _ _ _ => PEff.of_pre hc') (fun _ _ _ => PEff.of_pre hc')
      (fun _ _ => PEff.of_pre hc')
  unfold pre at key
  wps
  all_goals simp_all

end Verif.Piv
