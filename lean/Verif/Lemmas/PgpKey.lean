import Verif.Lemmas.PgpPin
import Verif.Lemmas.Key
/-
Effects of the commands that write data and use keys.
-/
set_option linter.unusedSimpArgs false
namespace Verif.Pgp
open Cmd Verif.Spec.Pgp Verif.KeyFile

variable {A : Fault → Prop} {x : Ext} {i : In} {f : Flash} {r : Ram}

/-- The counter as it is stored. -/
def ctrOf (f : Flash) : Option (Byte × Byte × Byte) := f.data.bind (·.ctr)
/-- The termination flag as it is stored. -/
def termOf (f : Flash) : Option Byte := f.data.bind (·.term)

/-- What is protected from data commands, but for the resetting code. -/
structure KeepBut (f f' : Flash) : Prop where
  ctr : ctrOf f' = ctrOf f
  term : termOf f' = termOf f
  touch : ∀ k, touchOf f k = some 4 → touchOf f' k = some 4
  pw1 : f'.pw1 = f.pw1
  pw3 : f'.pw3 = f.pw3

/-- What is protected from data commands. -/
structure Keep (f f' : Flash) : Prop where
  ctr : ctrOf f' = ctrOf f
  term : termOf f' = termOf f
  touch : ∀ k, touchOf f k = some 4 → touchOf f' k = some 4
  pw1 : f'.pw1 = f.pw1
  pw3 : f'.pw3 = f.pw3
  rc : f'.rc = f.rc

theorem Keep.rfl' : Keep f f := ⟨rfl, rfl, fun _ h => h, rfl, rfl, rfl⟩
theorem Keep.but {f' : Flash} (h : Keep f f') : KeepBut f f' := ⟨h.1, h.2, h.3, h.4, h.5⟩

/-- The resetting code is absent, or has 8 to 64 bytes. -/
def RcSize (p : Pin.Flash) : Prop := ∃ q, p = some q ∧ (q.data = [] ∨ 8 ≤ q.data.length ∧ q.data.length ≤ 64)

/-- What PUT DATA keeps: the resetting code is written under D3 only. -/
def PutKeep (i : In) (f f' : Flash) : Prop :=
  Keep f f' ∨ tagOf i.c = 0xD3 ∧ KeepBut f f' ∧ (f'.rc = f.rc ∨ RcSize f'.rc)

theorem PutKeep.but {f' : Flash} (h : PutKeep i f f') : KeepBut f f' := by
  rcases h with h | h
  · exact h.but
  · exact h.2.1

/-! ### Steps -/

section
variable {Q : Unit → Flash → Ram → Prop} {E : Reply → Flash → Ram → Prop} {X : Flash → Ram → Prop}

theorem setData_wp {g : Data → Data} {e : Reply}
    (hok : ∀ d, f.data = some d → Q () { f with data := some (g d) } r) (hno : f.data = none → E e f r)
    (hfail : A .fail → E e f r) (hcut : A .cut → X f r) : wp A (setData g e) Q E X f r := by
  unfold setData
  apply wp_wrOr
  · intro f' h
    obtain ⟨d, hd, rfl⟩ := Option.map_eq_some_iff.mp h
    exact hok d hd
  · intro h
    exact hno (Option.map_eq_none_iff.mp h)
  · exact hfail
  · exact hcut

theorem setKey_wp {k : K} {g : PKey → PKey}
    (hok : ∀ p, f.keys k = some p → Q () (f.setKey k (g p)) r) (hno : f.keys k = none → E ioErr f r)
    (hfail : A .fail → E ioErr f r) (hcut : A .cut → X f r) : wp A (setKey k g) Q E X f r := by
  unfold setKey
  apply wp_wrOr
  · intro f' h
    obtain ⟨d, hd, rfl⟩ := Option.map_eq_some_iff.mp h
    exact hok d hd
  · intro h
    exact hno (Option.map_eq_none_iff.mp h)
  · exact hfail
  · exact hcut

@[simp] theorem setKey_keys {k k' : K} {p : PKey} : (f.setKey k p).keys k' = if k' = k then some p else f.keys k' := rfl
@[simp] theorem setKey_data {k : K} {p : PKey} : (f.setKey k p).data = f.data := rfl
theorem setKey_setKey {k : K} {p q : PKey} : (f.setKey k p).setKey k q = f.setKey k q := by
  unfold Flash.setKey
  congr 1
  funext k'
  by_cases h : k' = k <;> simp [h]

/-- `ck_write_key`: interrupted between the two steps it leaves the new material with the old metadata. -/
theorem writeKey_wp {k : K} {m : Key.KeyMat} {a : Meta}
    (hok : Q () (f.setKey k { ((f.keys k).getD ⟨m, none, none, none⟩) with mat := m, info := some a }) r)
    (hE : ∀ f', A .fail → (f' = f ∨ f' = f.setKey k { ((f.keys k).getD ⟨m, none, none, none⟩) with mat := m }) →
      E ioErr f' r)
    (hX : ∀ f', A .cut → (f' = f ∨ f' = f.setKey k { ((f.keys k).getD ⟨m, none, none, none⟩) with mat := m }) →
      X f' r) : wp A (writeKey k m a) Q E X f r := by
  unfold writeKey
  apply wp_bind; apply wp_wrOr
  · intro f' h
    simp only [Option.some.injEq] at h
    subst h
    apply setKey_wp
    · intro p hp
      simp only [setKey_keys, if_true, Option.some.injEq] at hp
      subst hp
      rw [setKey_setKey]
      exact hok
    · intro h; simp at h
    · exact fun h => hE _ h (.inr rfl)
    · exact fun h => hX _ h (.inr rfl)
  · intro h; cases h
  · exact fun h => hE _ h (.inl rfl)
  · exact fun h => hX _ h (.inl rfl)
end

theorem touchOf_setKey {k k' : K} {p : PKey} :
    touchOf (f.setKey k p) k' = if k' = k then p.info.map (·.touch) else touchOf f k' := by
  unfold touchOf metaOf
  by_cases h : k' = k <;> simp [h]

theorem Keep.setKey {k : K} {p : PKey} (h : touchOf f k = some 4 → p.info.map (·.touch) = some 4) :
    Keep f (f.setKey k p) :=
  ⟨rfl, rfl, fun k' h' => by
    rw [touchOf_setKey]
    by_cases e : k' = k
    · subst e; rw [if_pos rfl]; exact h h'
    · rw [if_neg e]; exact h', rfl, rfl, rfl⟩

theorem Keep.setInfo {k : K} {p q : PKey} (hp : f.keys k = some p)
    (h : ∀ m, p.info = some m → m.touch = 4 → q.info.map (·.touch) = some 4) : Keep f (f.setKey k q) :=
  .setKey fun ht => by
    unfold touchOf metaOf at ht
    rw [hp] at ht
    simp only [Option.bind_some] at ht
    obtain ⟨m, hm, h4⟩ := Option.map_eq_some_iff.mp ht
    exact h m hm h4

theorem Keep.setMat {k : K} {m : Key.KeyMat} :
    Keep f (f.setKey k { ((f.keys k).getD ⟨m, none, none, none⟩) with mat := m }) :=
  .setKey fun h => by
    unfold touchOf metaOf at h
    cases hk : f.keys k with
    | none => rw [hk] at h; cases h
    | some p => rw [hk] at h; exact h

theorem Keep.setData {g : Data → Data} {d : Data} (hd : f.data = some d) (h1 : (g d).ctr = d.ctr)
    (h2 : (g d).term = d.term) : Keep f { f with data := some (g d) } :=
  ⟨by simp [ctrOf, hd, h1], by simp [termOf, hd, h2], fun _ h => h, rfl, rfl, rfl⟩

/-! ### PUT DATA -/

/-- Exits of PUT DATA. -/
def PutQ (f : Flash) (r : Ram) (a : Reply) (f' : Flash) (r' : Ram) : Prop :=
  Keep f f' ∧ Same r r' ∧ (Bad (.done a) ∨ a = .sw 0x9000)

/-- A command that writes data. -/
abbrev Puts (A : Fault → Prop) (m : M Reply) (f : Flash) (r : Ram) : Prop :=
  wp A m (PutQ f r) (PutQ f r) (fun f' _ => Keep f f' ∧ A .cut) f r

/-- Closes exits without effect. -/
macro "pts" : tactic => `(tactic| first
  | exact ⟨.rfl', .rfl', .inl (bad_sw (by decide))⟩
  | exact ⟨.rfl', .rfl', .inl bad_io⟩
  | exact ⟨.rfl', .rfl', .inl bad_ub⟩
  | exact ⟨.rfl', .rfl', .inr rfl⟩
  | exact ⟨.rfl', ‹_›⟩)

theorem putSet_wp (c : Apdu.Capdu) (lo hi : Nat) (g : Data → Data) (h1 : ∀ d, (g d).ctr = d.ctr)
    (h2 : ∀ d, (g d).term = d.term) : Puts A (putAttrOf c lo hi (setData g)) f r := by
  unfold putAttrOf
  wps
  · pts
  · apply setData_wp
    · intro d hd
      exact wp_pure ⟨.setData hd (h1 d) (h2 d), .rfl', .inr rfl⟩
    · intro _; pts
    · intro _; pts
    · intro h; exact ⟨.rfl', h⟩

theorem putKeyAttr_wp (c : Apdu.Capdu) (lo hi : Nat) (k : K) (g : PKey → PKey) (h : ∀ p, (g p).info = p.info) :
    Puts A (putAttrOf c lo hi (setKey k g)) f r := by
  unfold putAttrOf
  wps
  · pts
  · apply setKey_wp
    · intro d hd
      refine wp_pure ⟨.setInfo hd ?_, .rfl', .inr rfl⟩
      intro m hm h4
      rw [h, hm]; simp [h4]
    · intro _; pts
    · intro _; pts
    · intro h; exact ⟨.rfl', h⟩

theorem putUrl_wp (c : Apdu.Capdu) : Puts A (putAttrOf c 0 255
    (Cmd.wrOr (fun f => some { f with data := some { (f.data.getD Data.empty) with url := c.data } }) ioErr)) f r := by
  unfold putAttrOf
  wps
  all_goals try pts
  next h =>
    simp only [Option.some.injEq] at h
    subst h
    refine ⟨⟨?_, ?_, fun _ h => h, rfl, rfl, rfl⟩, .rfl', .inr rfl⟩
    · cases hd : f.data <;> simp [ctrOf, hd, Data.empty]
    · cases hd : f.data <;> simp [termOf, hd, Data.empty]

theorem putCert_wp (c : Apdu.Capdu) : Puts A (putCert c) f r := by
  unfold putCert
  wps
  all_goals try pts
  next h =>
    simp only [Option.some.injEq] at h
    subst h
    exact ⟨⟨rfl, rfl, fun _ h => h, rfl, rfl, rfl⟩, ⟨rfl, rfl, rfl, rfl⟩, .inr rfl⟩

theorem putAttr_wp (c : Apdu.Capdu) (k : K) : Puts A (putAttr c k) f r := by
  unfold putAttr readMeta
  wps
  all_goals try pts
  all_goals
    next m hm _ _ _ =>
    apply setKey_wp
    · intro p hp
      refine wp_pure ⟨.setInfo hp ?_, .rfl', .inr rfl⟩
      intro m' hm' h4
      rw [hp] at hm
      simp only [Option.bind_some, hm', Option.some.injEq] at hm
      subst hm
      simp [h4]
    · intro _; pts
    · intro _; pts
    · intro h; exact ⟨.rfl', h⟩

theorem putUif_wp (k : K) : Puts A (putUif i k) f r := by
  unfold putUif readMeta
  wps
  all_goals try pts
  next m hm h4 =>
  apply wp_mem
  · intro a ha
    wps
    all_goals try pts
    all_goals
      apply setKey_wp
      · intro p hp
        refine wp_pure ⟨.setInfo hp ?_, .rfl', .inr rfl⟩
        intro m' hm' h4'
        rw [hp] at hm
        simp only [Option.bind_some, hm', Option.some.injEq] at hm
        subst hm
        exact absurd h4' (by simpa using h4)
      · intro _; pts
      · intro _; pts
      · intro h; exact ⟨.rfl', h⟩
  · intro u hu
    pts

theorem putRc_wp (hi : tagOf i.c = 0xD3) :
    wp A (putRc x i.c) (fun a f' r' => PutKeep i f f' ∧ Same r r' ∧ (Bad (.done a) ∨ a = .sw 0x9000))
      (fun a f' r' => PutKeep i f f' ∧ Same r r' ∧ (Bad (.done a) ∨ a = .sw 0x9000))
      (fun f' _ => PutKeep i f f' ∧ A .cut) f r := by
  have hk : ∀ p, p = f.rc ∨ RcSize p → PutKeep i f ((partF .rc).set p f) :=
    fun p h => .inr ⟨hi, ⟨rfl, rfl, fun _ h => h, rfl, rfl⟩, h⟩
  have hs : ∀ q, Same r ((partR .rc).set q r) := fun q => ⟨rfl, rfl, rfl, rfl⟩
  have hl : ∀ {l : UInt8} {d : Bytes}, Pin.lenOk (pinCfg x .rc) l → l.toNat = d.length →
      8 ≤ (d.take l.toNat).length ∧ (d.take l.toNat).length ≤ 64 := by
    intro l d h e
    have h1 := UInt8.le_iff_toNat_le.1 h.1
    have h2 := lenOk_le h
    rw [e, List.take_length, ← e]
    exact ⟨h1, h2⟩
  unfold putRc
  apply wp_ite <;> intro h1
  · exact wp_throw ⟨.inl .rfl', .rfl', .inl (bad_sw (by decide))⟩
  apply wp_ite <;> intro h2
  · apply wp_bind
    apply wp_onPin (Pin.clear_wp (A := A))
    · rintro rc p q ⟨h, _⟩
      have hp : p = f.rc ∨ RcSize p := by
        cases h with
        | io _ _ hf =>
          rcases hf with rfl | rfl
          · exact .inl rfl
          · exact .inr ⟨_, rfl, .inl rfl⟩
        | done => exact .inr ⟨_, rfl, .inl rfl⟩
      apply wp_ite <;> intro h3
      · exact wp_throw ⟨hk _ hp, hs _, .inl bad_io⟩
      · exact wp_pure ⟨hk _ hp, hs _, .inr rfl⟩
    · rintro p q ⟨h, _, hp⟩
      refine ⟨hk _ ?_, h⟩
      rcases hp with rfl | rfl
      · exact .inl rfl
      · exact .inr ⟨_, rfl, .inl rfl⟩
  · have e : (UInt8.ofNat i.c.lc).toNat = i.c.data.length := by
      simp [Apdu.Capdu.lc] at h1 ⊢
      omega
    apply wp_bind
    apply wp_onPin (Pin.update_wp (A := A))
    · intro rc p q h
      have hp : p = f.rc ∨ RcSize p := by
        cases h with
        | length => exact .inl rfl
        | io => exact .inl rfl
        | half hl' => exact .inr ⟨_, rfl, .inr (hl hl' e)⟩
        | done _ _ _ _ hl' => exact .inr ⟨_, rfl, .inr (hl hl' e)⟩
      apply wp_ite <;> intro h3
      · exact wp_throw ⟨hk _ hp, hs _, .inl bad_io⟩
      apply wp_ite <;> intro h3
      · exact wp_throw ⟨hk _ hp, hs _, .inl (bad_sw (by decide))⟩
      · exact wp_pure ⟨hk _ hp, hs _, .inr rfl⟩
    · rintro p q ⟨h, hp⟩
      refine ⟨hk _ ?_, h⟩
      rcases hp with rfl | ⟨hl', rfl⟩
      · exact .inl rfl
      · exact .inr ⟨_, rfl, .inr (hl hl' e)⟩

theorem putCache_wp (c : Apdu.Capdu) : Puts A (putCache c) f r := by
  unfold putCache Puts
  wps
  · next b _ =>
    apply setData_wp
    · intro d hd
      exact wp_pure ⟨.setData (g := fun d => { d with cache := some b }) hd rfl rfl, ⟨rfl, rfl, rfl, rfl⟩, .inr rfl⟩
    · intro _; exact ⟨.rfl', ⟨rfl, rfl, rfl, rfl⟩, .inl bad_io⟩
    · intro _; exact ⟨.rfl', ⟨rfl, rfl, rfl, rfl⟩, .inl bad_io⟩
    · intro h; exact ⟨.rfl', h⟩
  · pts

theorem putPwStatus_wp (c : Apdu.Capdu) : Puts A (putPwStatus c) f r := by
  unfold putPwStatus Puts
  wps
  · pts
  · next b _ _ =>
    apply setData_wp
    · intro d hd
      exact wp_pure ⟨.setData (g := fun d => { d with pwStatus := some b }) hd rfl rfl, ⟨rfl, rfl, rfl, rfl⟩, .inr rfl⟩
    · intro _; exact ⟨.rfl', ⟨rfl, rfl, rfl, rfl⟩, .inl bad_io⟩
    · intro _; exact ⟨.rfl', ⟨rfl, rfl, rfl, rfl⟩, .inl bad_io⟩
    · intro h; exact ⟨.rfl', h⟩
  · pts

/-- The outcomes of a command that needs PW3. -/
inductive AdmEff (f : Flash) (r : Ram) (P : Outcome Reply → Flash → Ram → Prop) : Outcome Reply → Flash → Ram → Prop
  | no (h : r.pw3.validated = false) : AdmEff f r P (.done (.sw 0x6982)) f r
  | yes (h : r.pw3.validated = true) (o : Outcome Reply) (f' : Flash) (r' : Ram) (h' : P o f' r') : AdmEff f r P o f' r'

/-- The outcomes of PUT DATA with PW3. -/
inductive PutEff (A : Fault → Prop) (i : In) (f : Flash) (r : Ram) : Outcome Reply → Flash → Ram → Prop
  | done (a : Reply) (f' : Flash) (r' : Ram) (h : PutKeep i f f' ∧ Same r r' ∧ (Bad (.done a) ∨ a = .sw 0x9000)) :
      PutEff A i f r (.done a) f' r'
  | cut (h : A .cut) (f' : Flash) (r' : Ram) (hk : PutKeep i f f') : PutEff A i f r .cut f' r'

theorem putData_wp : wp A (putData x i) (fun a => AdmEff f r (PutEff A i f r) (.done a))
    (fun a => AdmEff f r (PutEff A i f r) (.done a)) (AdmEff f r (PutEff A i f r) .cut) f r := by
  unfold putData
  apply wp_bind
  refine needAdmin_wp (fun hv => ?_) (fun hv => .no hv)
  refine wp_mono (Q := fun a f' r' => PutKeep i f f' ∧ Same r r' ∧ (Bad (.done a) ∨ a = .sw 0x9000))
    (E := fun a f' r' => PutKeep i f f' ∧ Same r r' ∧ (Bad (.done a) ∨ a = .sw 0x9000))
    (X := fun f' _ => PutKeep i f f' ∧ A .cut) ?_
    (fun a f' r' h => .yes hv _ _ _ (.done a f' r' h)) (fun a f' r' h => .yes hv _ _ _ (.done a f' r' h))
    (fun f' r' h => .yes hv _ _ _ (.cut h.2 f' r' h.1))
  have up : ∀ {m : M Reply}, Puts A m f r →
      wp A m (fun a f' r' => PutKeep i f f' ∧ Same r r' ∧ (Bad (.done a) ∨ a = .sw 0x9000))
        (fun a f' r' => PutKeep i f f' ∧ Same r r' ∧ (Bad (.done a) ∨ a = .sw 0x9000))
        (fun f' _ => PutKeep i f f' ∧ A .cut) f r := fun h =>
    wp_mono h (fun _ _ _ h => ⟨.inl h.1, h.2⟩) (fun _ _ _ h => ⟨.inl h.1, h.2⟩) (fun _ _ h => ⟨.inl h.1, h.2⟩)
  have fin : Puts A (throw (.sw SW.wrongP1P2)) f r := wp_throw (by pts)
  apply wp_ite <;> intro htag
  · exact up (putSet_wp _ _ _ _ (fun _ => rfl) (fun _ => rfl))
  apply wp_ite <;> intro htag
  · exact up (putSet_wp _ _ _ _ (fun _ => rfl) (fun _ => rfl))
  apply wp_ite <;> intro htag
  · exact up (putSet_wp _ _ _ _ (fun _ => rfl) (fun _ => rfl))
  apply wp_ite <;> intro htag
  · exact up (putSet_wp _ _ _ _ (fun _ => rfl) (fun _ => rfl))
  apply wp_ite <;> intro htag
  · exact up (putUrl_wp _)
  apply wp_ite <;> intro htag
  · exact up (putCert_wp _)
  apply wp_ite <;> intro htag
  · exact up (putAttr_wp _ _)
  apply wp_ite <;> intro htag
  · exact up (putAttr_wp _ _)
  apply wp_ite <;> intro htag
  · exact up (putAttr_wp _ _)
  apply wp_ite <;> intro htag
  · exact up (putPwStatus_wp _)
  apply wp_ite <;> intro htag
  · exact up (putKeyAttr_wp _ _ _ _ _ (fun _ => rfl))
  apply wp_ite <;> intro htag
  · exact up (putKeyAttr_wp _ _ _ _ _ (fun _ => rfl))
  apply wp_ite <;> intro htag
  · exact up (putKeyAttr_wp _ _ _ _ _ (fun _ => rfl))
  apply wp_ite <;> intro htag
  · exact up (putSet_wp _ _ _ _ (fun _ => rfl) (fun _ => rfl))
  apply wp_ite <;> intro htag
  · exact up (putSet_wp _ _ _ _ (fun _ => rfl) (fun _ => rfl))
  apply wp_ite <;> intro htag
  · exact up (putSet_wp _ _ _ _ (fun _ => rfl) (fun _ => rfl))
  apply wp_ite <;> intro htag
  · exact up (putKeyAttr_wp _ _ _ _ _ (fun _ => rfl))
  apply wp_ite <;> intro htag
  · exact up (putKeyAttr_wp _ _ _ _ _ (fun _ => rfl))
  apply wp_ite <;> intro htag
  · exact up (putKeyAttr_wp _ _ _ _ _ (fun _ => rfl))
  apply wp_ite <;> intro htag
  · exact putRc_wp htag
  apply wp_ite <;> intro htag
  · exact up (putUif_wp _)
  apply wp_ite <;> intro htag
  · exact up (putUif_wp _)
  apply wp_ite <;> intro htag
  · exact up (putUif_wp _)
  apply wp_ite <;> intro htag
  · exact up (putCache_wp _)
  · exact up fin

/-! ### New keys -/

/-- The flash with a new key `k`, whose policy and usage are those of `m`. -/
def newKey (f : Flash) (k : K) (mat : Key.KeyMat) (m : Meta) : Flash :=
  f.setKey k { ((f.keys k).getD ⟨mat, none, none, none⟩) with mat := mat, info := some m }

/-- The counter is reset with the signature key. -/
def ctrReset (k : K) (f : Flash) : Flash :=
  if k = .sig then { f with data := f.data.map fun d => { d with ctr := some (0, 0, 0) } } else f

/-- A new key `k` is written, with or without its policy and usage. -/
def KeyShape (k : K) (f f' : Flash) : Prop :=
  (∃ mat, f' = f.setKey k { ((f.keys k).getD ⟨mat, none, none, none⟩) with mat := mat }) ∨
  ∃ m mat org, metaOf f k = some m ∧ f' = newKey f k mat { m with origin := org }

/-- The outcomes of writing a new key `k`, generated or imported. -/
inductive KeyEff (A : Fault → Prop) (k : K) (f : Flash) : Outcome Reply → Flash → Prop
  | none (o : Outcome Reply) (h : Bad o ∨ o = .cut ∧ A .cut) : KeyEff A k f o f
  | fail (o : Outcome Reply) (h : (∀ d, o ≠ .done (.resp d 0x9000))) (hA : o = .cut → A .cut) (f' : Flash)
      (hk : Keep f f') (hs : KeyShape k f f') : KeyEff A k f o f'
  | done (m : Meta) (hm : metaOf f k = some m) (mat : Key.KeyMat) (org : Byte) (hd : k = .sig → f.data ≠ Option.none)
      (d : Bytes) : KeyEff A k f (.done (.resp d 0x9000)) (ctrReset k (newKey f k mat { m with origin := org }))

theorem newKey_keep {k : K} {m : Meta} (hm : metaOf f k = some m) (mat : Key.KeyMat) (org : Byte) :
    Keep f (newKey f k mat { m with origin := org }) :=
  .setKey fun h => by
    unfold touchOf at h
    rw [hm] at h
    exact h

theorem bad_not_ok {o : Outcome Reply} (h : Bad o) (d : Bytes) : o ≠ .done (.resp d 0x9000) := by
  rintro rfl
  rcases h with ⟨u, h⟩ | ⟨sw, hn, h⟩
  · cases h
  · injection h with h; injection h with h1 h2; exact hn h2.symm

theorem ioErr_ne (d : Bytes) : (.done ioErr : Outcome Reply) ≠ .done (.resp d 0x9000) := bad_not_ok bad_io d

theorem write_reset_wp {k : K} {m : Meta} (hm : metaOf f k = some m) (mat : Key.KeyMat) (org : Byte) (d : Bytes)
    (e : Reply) (he : ∀ d, (.done e : Outcome Reply) ≠ .done (.resp d 0x9000))
    {g : M Reply} (hg : wp A (do
        if k == .sig then resetCtr e
        return (.resp d 0x9000) : M Reply)
      (fun a f' r' => KeyEff A k f (.done a) f' ∧ r' = r) (fun a f' r' => KeyEff A k f (.done a) f' ∧ r' = r)
      (fun f' _ => KeyEff A k f .cut f') (newKey f k mat { m with origin := org }) r → 
      wp A g (fun a f' r' => KeyEff A k f (.done a) f' ∧ r' = r) (fun a f' r' => KeyEff A k f (.done a) f' ∧ r' = r)
      (fun f' _ => KeyEff A k f .cut f') (newKey f k mat { m with origin := org }) r) :
    wp A (do
        writeKey k mat { m with origin := org }
        g : M Reply)
      (fun a f' r' => KeyEff A k f (.done a) f' ∧ r' = r) (fun a f' r' => KeyEff A k f (.done a) f' ∧ r' = r)
      (fun f' _ => KeyEff A k f .cut f') f r := by
  apply wp_bind
  apply writeKey_wp
  · apply hg
    have keep := newKey_keep hm mat org
    cases k with
    | sig =>
      apply wp_bind
      unfold resetCtr
      apply setData_wp
      · intro d' hd'
        have hf : f.data = some d' := hd'
        refine wp_pure ⟨?_, rfl⟩
        have := KeyEff.done (A := A) (k := .sig) (f := f) m hm mat org (fun _ => by rw [hf]; simp) d
        unfold ctrReset at this
        rw [if_pos rfl] at this
        simp only [newKey, setKey_data, hf, Option.map_some] at this ⊢
        exact this
      · intro _
        exact ⟨.fail _ he (fun h => by cases h) _ keep (.inr ⟨m, mat, org, hm, rfl⟩), rfl⟩
      · intro _
        exact ⟨.fail _ he (fun h => by cases h) _ keep (.inr ⟨m, mat, org, hm, rfl⟩), rfl⟩
      · intro h
        exact .fail _ (fun _ h => by cases h) (fun _ => h) _ keep (.inr ⟨m, mat, org, hm, rfl⟩)
    | dec =>
      exact wp_pure ⟨.done (k := .dec) m hm mat org (fun h => by cases h) d, rfl⟩
    | aut =>
      exact wp_pure ⟨.done (k := .aut) m hm mat org (fun h => by cases h) d, rfl⟩
  · rintro f' h (rfl | rfl)
    · exact ⟨.none _ (.inl bad_io), rfl⟩
    · exact ⟨.fail _ ioErr_ne (fun h => by cases h) _ .setMat (.inl ⟨mat, rfl⟩), rfl⟩
  · rintro f' h (rfl | rfl)
    · exact .none _ (.inr ⟨rfl, h⟩)
    · exact .fail _ (fun _ h => by cases h) (fun _ => h) _ .setMat (.inl ⟨mat, rfl⟩)

end Verif.Pgp
