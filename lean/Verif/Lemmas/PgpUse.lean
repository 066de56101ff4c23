import Verif.Lemmas.PgpKey
/-
Effects of import, generation, signatures, decryption and termination.
-/
set_option linter.unusedSimpArgs false
namespace Verif.Pgp
open Cmd Verif.Spec.Pgp Verif.KeyFile

variable {A : Fault → Prop} {x : Ext} {i : In} {f : Flash} {r : Ram}

theorem importHdr_throws {mem : Bytes} {sw : Nat} (h : (importHdr mem).run = .ok (.error sw)) : sw ≠ 0x9000 := by
  have : Throws (fun sw : SW => sw ≠ 0x9000) (importHdr mem) := by
    unfold importHdr
    simp only [PE.throw_bind]
    repeat' first
      | exact Throws.throw (by decide)
      | exact Throws.pure
      | exact Throws.lift
      | refine Throws.ite ?_ ?_
      | refine Throws.bind Throws.lift ?_
      | refine Throws.bind ?_ ?_
      | split
      | intro _
  exact this sw h

theorem importHdr_ok {mem : Bytes} {k : K} {p : Nat} (h : (importHdr mem).run = .ok (.ok (k, p))) :
    ∃ n l ref rest, mem = [0x4D] ++ l ++ [ref] ++ rest ∧ Spec.Key.LenEnc n l ∧ keyOf ref = some k := by
  have h : PE.Ok (importHdr mem) (k, p) := h
  unfold importHdr at h
  simp only [PE.throw_bind] at h
  rw [PE.ok_ite_iff] at h
  rcases h with ⟨_, h⟩ | ⟨h0, h⟩
  · exact (PE.ok_throw_iff.1 h).elim
  obtain ⟨t, ht, h⟩ := PE.ok_bind_iff.1 h
  rw [PE.ok_lift_iff, rd_eq_ok] at ht
  rw [PE.ok_ite_iff] at h
  rcases h with ⟨_, h⟩ | ⟨h1, h⟩
  · exact (PE.ok_throw_iff.1 h).elim
  have h1 : t = 0x4D := by simpa using h1
  subst h1
  obtain ⟨t, ht', h⟩ := PE.ok_bind_iff.1 h
  rw [PE.ok_lift_iff] at ht'
  cases t with
  | none => exact (PE.ok_throw_iff.1 h).elim
  | some t =>
    obtain ⟨len, ls⟩ := t
    simp only [] at h
    rw [PE.ok_ite_iff] at h
    rcases h with ⟨_, h⟩ | ⟨h2, h⟩
    · exact (PE.ok_throw_iff.1 h).elim
    rw [PE.ok_ite_iff] at h
    rcases h with ⟨_, h⟩ | ⟨h3, h⟩
    · exact (PE.ok_throw_iff.1 h).elim
    obtain ⟨ref, hr, h⟩ := PE.ok_bind_iff.1 h
    rw [PE.ok_lift_iff, rd_eq_ok] at hr
    cases hk : keyOf ref with
    | none => rw [hk] at h; exact (PE.ok_throw_iff.1 h).elim
    | some k' =>
      rw [hk] at h
      simp only [] at h
      obtain ⟨c, hc, h⟩ := PE.ok_bind_iff.1 h
      rw [PE.ok_ite_iff] at h
      rcases h with ⟨_, h⟩ | ⟨h4, h⟩
      · exact (PE.ok_throw_iff.1 h).elim
      rw [PE.ok_pure_iff] at h
      injection h with h5 h6
      subst h5
      obtain ⟨l, rest, e1, e2, e3, e4⟩ := Key.tlvLen_inv (mem := mem.drop 1) (n := len) (k := ls) (by
        rw [Key.tlvLen_drop, List.length_drop]; exact ht')
      cases mem with
      | nil => simp at ht
      | cons b mem =>
        simp only [List.getElem?_cons_zero, Option.some.injEq] at ht
        subst ht
        simp only [List.drop_succ_cons, List.drop_zero] at e1
        subst e1
        subst e3
        rw [Nat.add_comm, List.getElem?_cons_succ, List.getElem?_append_right (Nat.le_refl _), Nat.sub_self] at hr
        cases rest with
        | nil => cases hr
        | cons b rest =>
          simp only [List.getElem?_cons_zero, Option.some.injEq] at hr
          subst hr
          exact ⟨len, l, b, rest, by simp, e2, hk⟩

theorem keyOf_sig {ref : Byte} {k : K} (h : keyOf ref = some k) : k = .sig ↔ ref = 0xB6 := by
  unfold keyOf at h
  repeat' split at h
  all_goals simp_all
  · subst h; rename_i h1; subst h1; decide
  · subst h; rename_i h1; subst h1; decide

theorem importHdr_sig {mem : Bytes} {k : K} {p : Nat} (h : (importHdr mem).run = .ok (.ok (k, p))) :
    k = .sig ↔ NamesSig mem := by
  obtain ⟨n, l, ref, rest, rfl, hl, hk⟩ := importHdr_ok h
  rw [keyOf_sig hk]
  constructor
  · rintro rfl
    refine ⟨l, rest, rfl, ?_⟩
    cases hl with
    | one hn => exact .inl ⟨_, rfl, by rw [UInt8.lt_iff_toNat_lt, UInt8.toNat_ofNat']; show n % 256 < 128; omega⟩
    | two hn => exact .inr (.inl ⟨_, rfl⟩)
    | three hn => exact .inr (.inr ⟨_, _, rfl⟩)
  · rintro ⟨l', rest', e, hl'⟩
    simp only [List.cons_append, List.nil_append, List.append_assoc, List.cons.injEq, true_and] at e
    cases hl with
    | one hn =>
      have hlt : UInt8.ofNat n < 0x80 := by rw [UInt8.lt_iff_toNat_lt, UInt8.toNat_ofNat']; show n % 256 < 128; omega
      rcases hl' with ⟨m, rfl, hm⟩ | ⟨m, rfl⟩ | ⟨m, m', rfl⟩
      · simp at e; exact e.2.1
      · simp at e; rw [e.1] at hlt; exact absurd hlt (by decide)
      · simp at e; rw [e.1] at hlt; exact absurd hlt (by decide)
    | two hn =>
      rcases hl' with ⟨m, rfl, hm⟩ | ⟨m, rfl⟩ | ⟨m, m', rfl⟩
      · simp at e; rw [← e.1] at hm; exact absurd hm (by decide)
      · simp at e; exact e.2.1
      · simp at e
    | three hn =>
      rcases hl' with ⟨m, rfl, hm⟩ | ⟨m, rfl⟩ | ⟨m, m', rfl⟩
      · simp at e; rw [← e.1] at hm; exact absurd hm (by decide)
      · simp at e
      · simp at e; exact e.2.2.1

/-- The outcomes of an import with PW3. -/
inductive ImpEff (A : Fault → Prop) (i : In) (f : Flash) (r : Ram) : Outcome Reply → Flash → Ram → Prop
  | none (o : Outcome Reply) (h : Bad o ∨ o = .cut ∧ A .cut) (r' : Ram) (hr : o ≠ .cut → r' = r) :
      ImpEff A i f r o f r'
  | key (k : K) (hk : k = .sig ↔ NamesSig i.c.data) (o : Outcome Reply) (f' : Flash) (r' : Ram)
      (hr : o ≠ .cut → r' = r) (h : KeyEff A k f o f') : ImpEff A i f r o f' r'

theorem import_wp : wp A (importKey x i) (fun a => AdmEff f r (ImpEff A i f r) (.done a))
    (fun a => AdmEff f r (ImpEff A i f r) (.done a)) (AdmEff f r (ImpEff A i f r) .cut) f r := by
  unfold importKey
  apply wp_bind
  refine needAdmin_wp (fun hv => ?_) (fun hv => .no hv)
  refine wp_mono (Q := fun a => ImpEff A i f r (.done a)) (E := fun a => ImpEff A i f r (.done a))
    (X := ImpEff A i f r .cut) ?_
    (fun a f' r' h => .yes hv _ _ _ h) (fun a f' r' h => .yes hv _ _ _ h) (fun f' r' h => .yes hv _ _ _ h)
  have bad : ∀ sw : Nat, sw ≠ 0x9000 → ImpEff A i f r (.done (.sw sw)) f r :=
    fun sw h => .none _ (.inl (bad_sw h)) _ fun _ => rfl
  apply wp_ite <;> intro h1
  · exact wp_throw (bad _ (by decide))
  apply wp_bind
  apply wp_parse'
  · rintro ⟨k, p⟩ hp
    unfold readMeta
    apply wp_bind
    apply wp_rdOr
    · intro m hm
      apply wp_ite <;> intro h2
      · exact wp_throw (bad _ (by decide))
      apply wp_bind
      apply wp_mem
      · intro a ha
        cases a with
        | error e =>
          cases e
          all_goals exact wp_throw (bad _ (by decide))
        | ok mat =>
          refine wp_mono (write_reset_wp (r := r) (A := A) (k := k) (f := f) (m := m) hm mat 2 [] ioErr ioErr_ne
            (fun h => h)) ?_ ?_ ?_
          · rintro a f' r' ⟨h, rfl⟩; exact .key k (importHdr_sig hp) _ _ _ (fun _ => rfl) h
          · rintro a f' r' ⟨h, rfl⟩; exact .key k (importHdr_sig hp) _ _ _ (fun _ => rfl) h
          · rintro f' r' h; exact .key k (importHdr_sig hp) _ _ _ (fun h => absurd rfl h) h
      · intro u hu
        exact .none _ (.inl bad_ub) _ fun _ => rfl
    · intro _; exact bad _ (by decide)
    · intro _; exact bad _ (by decide)
    · intro h; exact .none _ (.inr ⟨rfl, h⟩) _ fun h => absurd rfl h
  · intro sw h; exact bad _ (importHdr_throws h)
  · intro u h; exact .none _ (.inl bad_ub) _ fun _ => rfl

/-- The outcomes of GENERATE ASYMMETRIC KEY PAIR. -/
inductive GenEff (A : Fault → Prop) (i : In) (f : Flash) (r : Ram) : Outcome Reply → Flash → Ram → Prop
  | none (o : Outcome Reply) (h : Bad o ∨ o = .cut ∧ A .cut) (r' : Ram) (hr : o ≠ .cut → r' = r) :
      GenEff A i f r o f r'
  | read (hp : i.c.p1 = 0x81) (d : Bytes) : GenEff A i f r (.done (.resp d 0x9000)) f r
  | key (hp : i.c.p1 = 0x80) (k : K) (hk : k = .sig ↔ i.c.data.head? = some 0xB6) (o : Outcome Reply) (f' : Flash)
      (r' : Ram) (hr : o ≠ .cut → r' = r) (h : KeyEff A k f o f') : GenEff A i f r o f' r'

theorem generate_wp : wp A (generate x i) (fun a => GenEff A i f r (.done a))
    (fun a => GenEff A i f r (.done a)) (GenEff A i f r .cut) f r := by
  have bad : ∀ sw : Nat, sw ≠ 0x9000 → GenEff A i f r (.done (.sw sw)) f r :=
    fun sw h => .none _ (.inl (bad_sw h)) _ fun _ => rfl
  have cut : A .cut → GenEff A i f r .cut f r := fun h => .none _ (.inr ⟨rfl, h⟩) _ fun h => absurd rfl h
  unfold generate
  apply wp_ite <;> intro h1
  · exact wp_throw (bad _ (by decide))
  apply wp_ite <;> intro h2
  · exact wp_throw (bad _ (by decide))
  apply wp_bind
  apply wp_mem
  · intro d0 hd0
    rw [rd_eq_ok] at hd0
    cases hk : keyOf d0 with
    | none => exact wp_throw (bad _ (by decide))
    | some k =>
      have hs : k = .sig ↔ i.c.data.head? = some 0xB6 := by
        rw [keyOf_sig hk, List.head?_eq_getElem?, hd0]
        simp
      simp only []
      unfold readKey readMeta
      apply wp_bind
      apply wp_bind
      apply wp_rdOr
      · intro m hm
        apply wp_bind
        apply wp_rdOr
        · intro mat hmat
          apply wp_pure
          apply wp_ite <;> intro h3
          · apply wp_ite <;> intro h4
            · exact wp_throw (bad _ (by decide))
            cases hg : i.gen m.type with
            | none => exact wp_throw (bad _ (by decide))
            | some mat' =>
              have h3 : i.c.p1 = 0x80 := by simpa using h3
              simp only []
              cases he : encodePub x.cr m.type mat' with
              | none =>
                refine wp_mono (write_reset_wp (r := r) (A := A) (k := k) (f := f) (m := m) hm mat' 1 [] ioErr ioErr_ne
                  (g := throw ioErr)
                  (fun _ => wp_throw ⟨.fail _ ioErr_ne (fun h => by cases h) _ (newKey_keep hm _ _) (.inr ⟨m, mat', 1, hm, rfl⟩), rfl⟩)) ?_ ?_ ?_
                · rintro a f' r' ⟨h, rfl⟩; exact .key h3 k hs _ _ _ (fun _ => rfl) h
                · rintro a f' r' ⟨h, rfl⟩; exact .key h3 k hs _ _ _ (fun _ => rfl) h
                · rintro f' r' h; exact .key h3 k hs _ _ _ (fun h => absurd rfl h) h
              | some pk =>
                refine wp_mono (write_reset_wp (r := r) (A := A) (k := k) (f := f) (m := m) hm mat' 1
                  ([0x7F, 0x49] ++ pk) (.resp ([0x7F, 0x49] ++ pk) SW.unable)
                  (fun d h => by injection h with h; injection h with _ h; exact absurd h (by decide))
                  (fun h => h)) ?_ ?_ ?_
                · rintro a f' r' ⟨h, rfl⟩; exact .key h3 k hs _ _ _ (fun _ => rfl) h
                · rintro a f' r' ⟨h, rfl⟩; exact .key h3 k hs _ _ _ (fun _ => rfl) h
                · rintro f' r' h; exact .key h3 k hs _ _ _ (fun h => absurd rfl h) h
          · apply wp_ite <;> intro h4
            · apply wp_ite <;> intro h5
              · exact wp_throw (bad _ (by decide))
              split
              · exact wp_throw (bad _ (by decide))
              · exact wp_pure (.read (by simpa using h4) _)
            · exact wp_throw (bad _ (by decide))
        · intro _; exact bad _ (by decide)
        · intro _; exact bad _ (by decide)
        · exact cut
      · intro _; exact bad _ (by decide)
      · intro _; exact bad _ (by decide)
      · exact cut
  · intro u hu
    exact .none _ (.inl bad_ub) _ fun _ => rfl

/-! ### Using keys -/

/-- Touch as it is checked: over NFC, or within the cache time, or the user is present now. -/
def TouchNow (i : In) (r : Ram) : Prop :=
  i.nfc = true ∨ i.present = true ∨ (i.tick > r.lastTouch ∧ i.tick - r.lastTouch < r.cache.toNat * 1000)

/-- What a touch does to the variables. -/
def Touching (i : In) (r r' : Ram) : Prop :=
  r' = r ∨ (i.nfc = false ∧ i.present = true ∧ r' = { r with lastTouch := i.tick' })

theorem touch_wp {Q : Unit → Flash → Ram → Prop} {E : Reply → Flash → Ram → Prop} {X : Flash → Ram → Prop}
    (hQ : ∀ r', TouchNow i r → Touching i r r' → Q () f r') (hE : E (.sw SW.receiving) f r) :
    wp A (touch i) Q E X f r := by
  unfold touch
  apply wp_ite <;> intro h1
  · exact wp_pure (hQ _ (.inl (by simpa using h1)) (.inl rfl))
  apply wp_bind; apply wp_get
  apply wp_ite <;> intro h2
  · exact wp_pure (hQ _ (.inr (.inr (by simpa using h2))) (.inl rfl))
  apply wp_ite <;> intro h3
  · exact wp_throw hE
  · exact wp_mod (hQ _ (.inr (.inl (by simpa using h3))) (.inr ⟨by simpa using h1, by simpa using h3, rfl⟩))

/-- The variables after a use of a key: only the mode for signatures and the time of the last touch change. -/
structure Used (i : In) (r r' : Ram) : Prop where
  m82 : r'.m82 = r.m82
  pw3 : r'.pw3 = r.pw3
  m81 : r'.m81 = r.m81 ∨ r'.m81 = false
  touch : r'.lastTouch = r.lastTouch ∨ (i.nfc = false ∧ i.present = true ∧ r'.lastTouch = i.tick')

theorem Used.rfl' : Used i r r := ⟨rfl, rfl, .inl rfl, .inl rfl⟩
theorem Used.of_touching {r' : Ram} (h : Touching i r r') : Used i r r' := by
  rcases h with rfl | ⟨h1, h2, rfl⟩
  · exact .rfl'
  · exact ⟨rfl, rfl, .inl rfl, .inr ⟨h1, h2, rfl⟩⟩

theorem Used.of_touching' {r' : Ram} (h : Touching i { r with m81 := false } r') : Used i r r' := by
  rcases h with rfl | ⟨h1, h2, rfl⟩
  · exact ⟨rfl, rfl, .inr rfl, .inl rfl⟩
  · exact ⟨rfl, rfl, .inr rfl, .inr ⟨h1, h2, rfl⟩⟩

/-- The key `k` may be used for `usage` (1 sign, 2 decipher): it is present and touched. -/
structure Usable (i : In) (f : Flash) (r : Ram) (k : K) (usage : Byte) (p : PKey) (m : Meta) : Prop where
  key : f.keys k = some p
  info : p.info = some m
  origin : m.origin ≠ 0
  usage : m.usage &&& usage ≠ 0
  touch : m.touch = 3 ∨ m.touch = 4 → TouchNow i r

/-- The digest as it is signed. -/
def digest (x : Ext) (t : KTy) (c : Apdu.Capdu) : Bytes :=
  if t.isWei then List.replicate (x.cr.priv t - c.lc) 0 ++ c.data else c.data

/-- The outcomes of COMPUTE DIGITAL SIGNATURE and INTERNAL AUTHENTICATE. -/
inductive SignEff (A : Fault → Prop) (x : Ext) (i : In) (s : Bool) (f : Flash) (r : Ram) :
    Outcome Reply → Flash → Ram → Prop
  | noPin (h : (if s then r.m81 else r.m82) = false) : SignEff A x i s f r (.done (.sw 0x6982)) f r
  | bad (hp : (if s then r.m81 else r.m82) = true) (o : Outcome Reply) (h : Bad o ∨ o = .cut ∧ A .cut) (r' : Ram)
      (hu : o ≠ .cut → Used i r r') (hm : s = false → o ≠ .cut → r'.m81 = r.m81) : SignEff A x i s f r o f r'
  | given (hp : (if s then r.m81 else r.m82) = true) (p : PKey) (m : Meta)
      (h : Usable i f r (if s then .sig else .aut) 1 p m) (d : Bytes)
      (hd : x.cr.sign m.type p.mat (digest x m.type i.c) = some d)
      (r' : Ram) (hu : Used i r r') (hm : s = false → r'.m81 = r.m81)
      (h1 : s = true → (OneShot f → r'.m81 = false)) (f' : Flash) (sw : Nat)
      (hf : (s = false ∧ f' = f ∧ sw = 0x9000) ∨ (s = true ∧ f' = f ∧ sw = 0x6900) ∨
        (s = true ∧ sw = 0x9000 ∧ ∃ dt n, f.data = some dt ∧ dt.ctr = some n ∧
          f' = { f with data := some { dt with ctr := some (incr n) } })) :
      SignEff A x i s f r (.done (.resp d sw)) f' r'

theorem sign_wp (s : Bool) : wp A (signOrAuth x i s) (fun a => SignEff A x i s f r (.done a))
    (fun a => SignEff A x i s f r (.done a)) (SignEff A x i s f r .cut) f r := by
  unfold signOrAuth
  apply wp_bind; apply wp_get
  apply wp_ite <;> intro hp
  · exact wp_throw (.noPin (by simpa using hp))
  have hp : (if s then r.m81 else r.m82) = true := by simpa using hp
  have main : ∀ r0, Used i r r0 → (s = false → r0.m81 = r.m81) → (s = true → (OneShot f → r0.m81 = false)) →
      r0.lastTouch = r.lastTouch → r0.cache = r.cache →
      wp A (do
        let m ← readMeta (if s then .sig else .aut)
        if m.touch == 3 || m.touch == 4 then touch i
        if m.origin == 0 then throw (.sw SW.refNotFound)
        if m.usage &&& 1 == 0 then throw (.sw SW.conditions)
        if m.type.isRsa && i.c.lc > x.cr.pub m.type * 2 / 5 then throw (.sw SW.wrongLength)
        if m.type.isWei && i.c.lc > x.cr.priv m.type then throw (.sw SW.wrongLength)
        let d := if m.type.isWei then List.replicate (x.cr.priv m.type - i.c.lc) 0 ++ i.c.data else i.c.data
        let (key, m) ← readKey (if s then .sig else .aut)
        if !m.type.isEcc && !m.type.isRsa then throw ioErr
        match x.cr.sign m.type key d with
        | none => throw ioErr
        | some sg =>
          if s then
            let n ← getAttr (·.ctr) (.resp sg SW.unable)
            setData (fun d => { d with ctr := some (incr n) }) (.resp sg SW.unable)
          return .resp sg SW.ok : M Reply) (fun a => SignEff A x i s f r (.done a))
        (fun a => SignEff A x i s f r (.done a)) (SignEff A x i s f r .cut) f r0 := by
    intro r0 hu0 hm0 h10 ht0 hc0
    unfold readMeta
    have bad0 : ∀ e, Bad (.done e) → SignEff A x i s f r (.done e) f r0 :=
      fun e he => .bad hp _ (.inl he) _ (fun _ => hu0) (fun h _ => hm0 h)
    have cut0 : ∀ r', A .cut → SignEff A x i s f r .cut f r' :=
      fun r' h => .bad hp _ (.inr ⟨rfl, h⟩) _ (fun h => absurd rfl h) (fun _ h => absurd rfl h)
    apply wp_bind
    apply wp_rdOr
    · intro m hm
      obtain ⟨p, hk, hi⟩ := Option.bind_eq_some_iff.mp hm
      have rest : ∀ r1, Used i r r1 → (s = false → r1.m81 = r.m81) → (s = true → (OneShot f → r1.m81 = false)) →
          (m.touch = 3 ∨ m.touch = 4 → TouchNow i r) →
          wp A (do
            if m.origin == 0 then throw (.sw SW.refNotFound)
            if m.usage &&& 1 == 0 then throw (.sw SW.conditions)
            if m.type.isRsa && i.c.lc > x.cr.pub m.type * 2 / 5 then throw (.sw SW.wrongLength)
            if m.type.isWei && i.c.lc > x.cr.priv m.type then throw (.sw SW.wrongLength)
            let d := if m.type.isWei then List.replicate (x.cr.priv m.type - i.c.lc) 0 ++ i.c.data else i.c.data
            let (key, m) ← readKey (if s then .sig else .aut)
            if !m.type.isEcc && !m.type.isRsa then throw ioErr
            match x.cr.sign m.type key d with
            | none => throw ioErr
            | some sg =>
              if s then
                let n ← getAttr (·.ctr) (.resp sg SW.unable)
                setData (fun d => { d with ctr := some (incr n) }) (.resp sg SW.unable)
              return .resp sg SW.ok : M Reply) (fun a => SignEff A x i s f r (.done a))
            (fun a => SignEff A x i s f r (.done a)) (SignEff A x i s f r .cut) f r1 := by
        intro r1 hu hm1 h1 htn
        have bad1 : ∀ e, Bad (.done e) → SignEff A x i s f r (.done e) f r1 :=
          fun e he => .bad hp _ (.inl he) _ (fun _ => hu) (fun h _ => hm1 h)
        apply wp_ite <;> intro ho
        · exact wp_throw (bad1 _ (bad_sw (by decide)))
        apply wp_ite <;> intro hus
        · exact wp_throw (bad1 _ (bad_sw (by decide)))
        apply wp_ite <;> intro _
        · exact wp_throw (bad1 _ (bad_sw (by decide)))
        apply wp_ite <;> intro _
        · exact wp_throw (bad1 _ (bad_sw (by decide)))
        unfold readKey readMeta
        apply wp_bind
        apply wp_bind
        apply wp_rdOr
        · intro m2 hm2
          rw [hm] at hm2
          simp only [Option.some.injEq] at hm2
          subst hm2
          apply wp_bind
          apply wp_rdOr
          · intro mat hmat
            rw [hk] at hmat
            simp only [Option.map_some, Option.some.injEq] at hmat
            subst hmat
            apply wp_pure
            apply wp_ite <;> intro _
            · exact wp_throw (bad1 _ bad_io)
            have hus : Usable i f r (if s then .sig else .aut) 1 p m :=
              ⟨hk, hi, by simpa using ho, by simpa using hus, htn⟩
            cases hsg : x.cr.sign m.type p.mat
              (if m.type.isWei then List.replicate (x.cr.priv m.type - i.c.lc) 0 ++ i.c.data else i.c.data) with
            | none => exact wp_throw (bad1 _ bad_io)
            | some sg =>
              have hsg : x.cr.sign m.type p.mat (digest x m.type i.c) = some sg := hsg
              cases s with
              | false => exact wp_pure (.given hp p m hus sg hsg _ hu hm1 h1 _ _ (.inl ⟨rfl, rfl, rfl⟩))
              | true =>
                have half : SignEff A x i true f r (.done (.resp sg SW.unable)) f r1 :=
                  .given hp p m hus sg hsg _ hu hm1 h1 _ _ (.inr (.inl ⟨rfl, rfl, rfl⟩))
                unfold getAttr
                show wp A (do
                  let n ← Cmd.rdOr (fun f => f.data.bind (·.ctr)) (.resp sg SW.unable)
                  setData (fun d => { d with ctr := some (incr n) }) (.resp sg SW.unable)
                  return .resp sg SW.ok : M Reply) _ _ _ _ _
                apply wp_bind
                apply wp_rdOr
                · intro n hn
                  apply wp_bind
                  apply setData_wp
                  · intro dt hdt
                    rw [hdt] at hn
                    exact wp_pure (.given hp p m hus sg hsg _ hu hm1 h1 _ _ (.inr (.inr ⟨rfl, rfl, dt, n, hdt, hn, rfl⟩)))
                  · exact fun _ => half
                  · exact fun _ => half
                  · exact cut0 _
                · exact fun _ => half
                · exact fun _ => half
                · exact cut0 _
          · intro _; exact bad1 _ bad_io
          · intro _; exact bad1 _ bad_io
          · exact cut0 _
        · intro _; exact bad1 _ bad_io
        · intro _; exact bad1 _ bad_io
        · exact cut0 _
      apply wp_ite <;> intro ht
      · apply wp_bind
        apply touch_wp
        · intro r1 htn hto
          have htn' : TouchNow i r := by
            unfold TouchNow at htn ⊢; rw [ht0, hc0] at htn; exact htn
          refine rest r1 ?_ ?_ ?_ fun _ => htn'
          · rcases hto with rfl | ⟨h1, h2, rfl⟩
            · exact hu0
            · exact ⟨hu0.m82, hu0.pw3, hu0.m81, .inr ⟨h1, h2, rfl⟩⟩
          · rcases hto with rfl | ⟨h1, h2, rfl⟩ <;> exact hm0
          · rcases hto with rfl | ⟨h1, h2, rfl⟩ <;> exact h10
        · exact bad0 _ (bad_sw (by decide))
      · exact rest r0 hu0 hm0 h10 fun h => absurd h (by simpa using ht)
    · intro _; exact bad0 _ bad_io
    · intro _; exact bad0 _ bad_io
    · exact cut0 _
  cases s with
  | false => exact main r .rfl' (fun _ => rfl) (fun h => by cases h) rfl rfl
  | true =>
    unfold getAttr
    show wp A (do
      let s ← Cmd.rdOr (fun f => f.data.bind (·.pwStatus)) ioErr
      if s == 0 then Cmd.mod fun r => { r with m81 := false }
      _ : M Reply) _ _ _ _ _
    apply wp_bind
    apply wp_rdOr
    · intro b hb
      apply wp_ite <;> intro h0
      · apply wp_bind; apply wp_mod
        exact main _ ⟨rfl, rfl, .inr rfl, .inl rfl⟩ (fun h => by cases h) (fun _ _ => rfl) rfl rfl
      · refine main _ .rfl' (fun h => by cases h) (fun _ => ?_) rfl rfl
        rintro ⟨d, hd, h1⟩
        rw [hd] at hb
        simp only [Option.bind_some, h1, Option.some.injEq] at hb
        exact absurd hb.symm (by simpa using h0)
    · intro _; exact .bad hp _ (.inl bad_io) _ (fun _ => .rfl') (fun h => by cases h)
    · intro _; exact .bad hp _ (.inl bad_io) _ (fun _ => .rfl') (fun h => by cases h)
    · intro h; exact .bad hp _ (.inr ⟨rfl, h⟩) _ (fun h => absurd rfl h) (fun _ h => absurd rfl h)

/-- The outcomes of DECIPHER. -/
inductive DecEff (A : Fault → Prop) (x : Ext) (i : In) (f : Flash) (r : Ram) : Outcome Reply → Flash → Ram → Prop
  | noPin (h : r.m82 = false) : DecEff A x i f r (.done (.sw 0x6982)) f r
  | bad (hp : r.m82 = true) (o : Outcome Reply) (h : Bad o ∨ o = .cut ∧ A .cut) (r' : Ram)
      (hu : o ≠ .cut → Touching i r r') : DecEff A x i f r o f r'
  | given (hp : r.m82 = true) (p : PKey) (m : Meta) (h : Usable i f r .dec 2 p m) (d : Bytes) (r' : Ram)
      (hu : Touching i r r')
      (hd : (m.type.isRsa = true ∧ x.rsaDec p.mat ((i.c.data.drop 1).take (x.cr.pub m.type)) = .ok d) ∨
        (m.type.isRsa = false ∧ ∃ pt, pt <:+ i.c.data ∧ pt.length = x.cr.pub m.type ∧
          x.cr.ecdh m.type p.mat pt = some d)) :
      DecEff A x i f r (.done (.resp d 0x9000)) f r'

theorem eccOffset_len {t : KTy} {mem : Bytes} {q : Nat} (h : eccOffset x t mem = .ok (some q)) :
    mem.length - q = x.cr.pub t := by
  have aux : ∀ {α β} {m : C α} {k : α → C β} {b : β}, (m >>= k) = .ok b → ∃ a, m = .ok a ∧ k a = .ok b := by
    intro α β m k b h
    cases m with
    | error => cases h
    | ok a => exact ⟨a, rfl, h⟩
  unfold eccOffset at h
  obtain ⟨o, _, h⟩ := aux h
  cases o with
  | none => cases h
  | some p =>
    obtain ⟨o, _, h⟩ := aux h
    cases o with
    | none => cases h
    | some p =>
      obtain ⟨o, _, h⟩ := aux h
      cases o with
      | none => cases h
      | some p =>
        simp only at h
        split at h
        · split at h
          · cases h
          · next hl =>
            obtain ⟨b, _, h⟩ := aux h
            split at h
            · cases h
            · cases h; omega
        · split at h
          · cases h
          · next hl => cases h; omega

theorem decipher_wp : wp A (decipher x i) (fun a => DecEff A x i f r (.done a))
    (fun a => DecEff A x i f r (.done a)) (DecEff A x i f r .cut) f r := by
  unfold decipher
  apply wp_bind; apply wp_get
  apply wp_ite <;> intro hp
  · exact wp_throw (.noPin (by simpa using hp))
  have hp : r.m82 = true := by simpa using hp
  have cut0 : ∀ r', A .cut → DecEff A x i f r .cut f r' :=
    fun r' h => .bad hp _ (.inr ⟨rfl, h⟩) _ (fun h => absurd rfl h)
  unfold readMeta
  apply wp_bind
  apply wp_rdOr
  · intro m hm
    obtain ⟨p, hk, hi⟩ := Option.bind_eq_some_iff.mp hm
    have rest : ∀ r1, Touching i r r1 → (m.touch = 3 ∨ m.touch = 4 → TouchNow i r) →
        wp A (do
          if m.origin == 0 then throw (.sw SW.refNotFound)
          if m.usage &&& 2 == 0 then throw (.sw SW.conditions)
          let (key, m) ← readKey .dec
          if m.type.isRsa then
            if i.c.lc < x.cr.pub m.type + 1 then throw (.sw SW.wrongLength)
            let d0 ← Cmd.mem (rd i.c.data 0)
            if d0 != 0 then throw (.sw SW.wrongData)
            let d ← Cmd.mem (rdRange i.c.data 1 (x.cr.pub m.type))
            match x.rsaDec key d with
            | .error pad => throw (if pad then .sw SW.wrongData else ioErr)
            | .ok o => return .resp o SW.ok
          else if m.type.isEcc then
            if i.c.lc < 8 then throw (.sw SW.wrongLength)
            match ← Cmd.mem (eccOffset x m.type i.c.data) with
            | none => throw (.sw SW.wrongData)
            | some p =>
              let d ← Cmd.mem (rdRange i.c.data p (x.cr.pub m.type))
              match x.cr.ecdh m.type key d with
              | none => throw ioErr
              | some o => return .resp o SW.ok
          else throw ioErr : M Reply) (fun a => DecEff A x i f r (.done a))
          (fun a => DecEff A x i f r (.done a)) (DecEff A x i f r .cut) f r1 := by
      intro r1 hu htn
      have bad1 : ∀ e, Bad (.done e) → DecEff A x i f r (.done e) f r1 :=
        fun e he => .bad hp _ (.inl he) _ (fun _ => hu)
      apply wp_ite <;> intro ho
      · exact wp_throw (bad1 _ (bad_sw (by decide)))
      apply wp_ite <;> intro hus
      · exact wp_throw (bad1 _ (bad_sw (by decide)))
      unfold readKey readMeta
      apply wp_bind
      apply wp_bind
      apply wp_rdOr
      · intro m2 hm2
        rw [hm] at hm2
        simp only [Option.some.injEq] at hm2
        subst hm2
        apply wp_bind
        apply wp_rdOr
        · intro mat hmat
          rw [hk] at hmat
          simp only [Option.map_some, Option.some.injEq] at hmat
          subst hmat
          apply wp_pure
          have hus : Usable i f r .dec 2 p m := ⟨hk, hi, by simpa using ho, by simpa using hus, htn⟩
          apply wp_ite <;> intro hr
          · apply wp_ite <;> intro hl
            · exact wp_throw (bad1 _ (bad_sw (by decide)))
            apply wp_bind
            apply wp_mem
            · intro d0 _
              apply wp_ite <;> intro _
              · exact wp_throw (bad1 _ (bad_sw (by decide)))
              apply wp_bind
              apply wp_mem
              · intro d hd
                rw [rdRange_eq_ok] at hd
                cases hx : x.rsaDec p.mat d with
                | error pad =>
                  apply wp_throw
                  cases pad
                  · exact bad1 _ bad_io
                  · exact bad1 _ (bad_sw (by decide))
                | ok o =>
                  refine wp_pure (.given hp p m hus o r1 hu (.inl ⟨hr, ?_⟩))
                  rw [hd.2]; exact hx
              · intro u _; exact bad1 _ bad_ub
            · intro u _; exact bad1 _ bad_ub
          · apply wp_ite <;> intro he
            · apply wp_ite <;> intro hl
              · exact wp_throw (bad1 _ (bad_sw (by decide)))
              apply wp_bind
              apply wp_mem
              · intro o hoff
                cases o with
                | none => exact wp_throw (bad1 _ (bad_sw (by decide)))
                | some q =>
                  simp only []
                  apply wp_bind
                  apply wp_mem
                  · intro d hd
                    rw [rdRange_eq_ok] at hd
                    have hlen := eccOffset_len hoff
                    have hd1 : d = i.c.data.drop q := by
                      rw [← hd.2]; exact List.take_of_length_le (by rw [List.length_drop]; omega)
                    cases hx : x.cr.ecdh m.type p.mat d with
                    | none => exact wp_throw (bad1 _ bad_io)
                    | some o =>
                      exact wp_pure (.given hp p m hus o r1 hu (.inr ⟨by simpa using hr, d, by rw [hd1]; exact List.drop_suffix ..,
                        by rw [hd1, List.length_drop]; exact hlen, hx⟩))
                  · intro u _; exact bad1 _ bad_ub
              · intro u _; exact bad1 _ bad_ub
            · exact wp_throw (bad1 _ bad_io)
        · intro _; exact bad1 _ bad_io
        · intro _; exact bad1 _ bad_io
        · exact cut0 _
      · intro _; exact bad1 _ bad_io
      · intro _; exact bad1 _ bad_io
      · exact cut0 _
    apply wp_ite <;> intro ht
    · apply wp_bind
      apply touch_wp
      · intro r1 htn hto
        exact rest r1 hto fun _ => htn
      · exact .bad hp _ (.inl (bad_sw (by decide))) _ (fun _ => .inl rfl)
    · exact rest r (.inl rfl) fun h => absurd h (by simpa using ht)
  · intro _; exact .bad hp _ (.inl bad_io) _ (fun _ => .inl rfl)
  · intro _; exact .bad hp _ (.inl bad_io) _ (fun _ => .inl rfl)
  · exact cut0 _

/-! ### Termination -/

/-- The outcomes of TERMINATE. -/
inductive TermEff (A : Fault → Prop) (f : Flash) (r : Ram) : Outcome Reply → Flash → Ram → Prop
  | bad (o : Outcome Reply) (h : Bad o ∨ o = .cut ∧ A .cut) (r' : Ram) (hr : o ≠ .cut → r' = r) :
      TermEff A f r o f r'
  | done (hv : r.pw3.validated = true ∨ Blocked f.pw3) (d : Data) (hd : f.data = some d) :
      TermEff A f r (.done (.sw 0x9000)) { f with data := some { d with term := some 1 } } r

theorem terminate_wp (c : Apdu.Capdu) : wp A (terminate c) (fun a => TermEff A f r (.done a))
    (fun a => TermEff A f r (.done a)) (TermEff A f r .cut) f r := by
  have bad : ∀ sw : Nat, sw ≠ 0x9000 → TermEff A f r (.done (.sw sw)) f r :=
    fun sw h => .bad _ (.inl (bad_sw h)) _ fun _ => rfl
  have cut : ∀ r', A .cut → TermEff A f r .cut f r' := fun r' h => .bad _ (.inr ⟨rfl, h⟩) _ fun h => absurd rfl h
  unfold terminate
  apply wp_ite <;> intro _
  · exact wp_throw (bad _ (by decide))
  apply wp_bind
  apply wp_onPin Pin.getRetries_wp
  · rintro n p q ⟨h, rfl, rfl⟩
    rw [set_get_F, set_get_R]
    have fin : (r.pw3.validated = true ∨ Blocked f.pw3) → wp A (do
        setData fun d => { d with term := some 1 }
        return .sw SW.ok : M Reply) (fun a => TermEff A f r (.done a))
        (fun a => TermEff A f r (.done a)) (TermEff A f r .cut) f r := by
      intro hv
      apply wp_bind
      apply setData_wp
      · exact fun d hd => wp_pure (.done hv d hd)
      · exact fun _ => bad _ (by decide)
      · exact fun _ => bad _ (by decide)
      · exact cut _
    cases n with
    | none => exact wp_throw (bad _ (by decide))
    | some n =>
      simp only []
      apply wp_ite <;> intro hn
      · apply wp_bind
        exact needAdmin_wp (fun hv => fin (.inl hv)) (fun _ => bad _ (by decide))
      · refine fin (.inr ?_)
        intro q c hq hd hc
        cases h with
        | empty q' hq' hd' =>
          have : (partF .pw3).get f = f.pw3 := rfl
          rw [this, hq] at hq'
          cases hq'
          exact absurd hd' hd
        | some q' c' hq' hc' hd' =>
          have : (partF .pw3).get f = f.pw3 := rfl
          rw [this, hq] at hq'
          cases hq'
          rw [hc] at hc'
          cases hc'
          exact UInt8.toNat_inj.1 (by simpa using hn)
  · rintro p q ⟨h, rfl, rfl⟩
    rw [set_get_F, set_get_R]
    exact cut _ h

end Verif.Pgp
