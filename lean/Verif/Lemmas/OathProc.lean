import Verif.Lemmas.OathAll
set_option linter.unusedSimpArgs false
namespace Verif.Oath
open Verif.Spec.Oath Cmd

variable {A : Fault → Prop} {x : Ext} {i : In} {f : Flash} {r : Ram}

/-! ### SELECT and the access code -/

/-- The outcomes of SELECT. -/
inductive SelEff (A : Fault → Prop) (i : In) (f : Flash) (r : Ram) :
    Outcome Reply → Flash → Ram → Prop
  | bad (d : Bytes) (sw : SW) (h : sw ≠ SW.ok)
      (hw : i.c.p2 ≠ 0 ∨ A .fail ∨ f.oath.bind (·.handle) = none ∨ f.oath.bind (·.key) = none) :
      SelEff A i f r (.done (.resp d sw)) f r
  | cut (h : A .cut) : SelEff A i f r .cut f r
  | opened (o : OathFile) (hd : Bytes) (ho : f.oath = some o) (hk : o.key = some [])
      (hh : o.handle = some hd) :
      SelEff A i f r (.done (.resp ([0x79, 3, 6, 0, 0, 0x71, 8] ++ hd) SW.ok)) f { r with validated := true }
  | locked (o : OathFile) (hd k : Bytes) (ho : f.oath = some o) (hk : o.key = some k) (hne : k ≠ [])
      (hh : o.handle = some hd) :
      SelEff A i f r (.done (.resp ([0x79, 3, 6, 0, 0, 0x71, 8] ++ hd ++ [0x74, 8] ++ i.rnd ++
        [0x7B, 1, 1]) SW.ok)) f { r with authChal := i.rnd }

theorem select_eff : wp A (select i) (fun a => SelEff A i f r (.done a))
    (fun e => SelEff A i f r (.done e)) (SelEff A i f r .cut) f r := by
  simp only [select, Cmd.throw_bind]
  apply wp_ite
  · intro h; exact wp_throw (.bad _ _ (by decide) (.inl (by simpa using h)))
  · intro _
    apply wp_bind
    apply wp_rdOr
    · intro hd hh
      obtain ⟨o, ho, hh⟩ := Option.bind_eq_some_iff.mp hh
      apply wp_bind
      apply wp_rdOr
      · intro k hk
        rw [ho] at hk
        simp only [Option.bind_some] at hk
        apply wp_ite
        · intro he
          have he : k = [] := by simpa using he
          apply wp_bind
          apply wp_mod
          exact wp_pure (.opened o hd ho (by rw [hk, he]) hh)
        · intro he
          have he : k ≠ [] := by simpa using he
          apply wp_bind
          apply wp_mod
          exact wp_pure (.locked o hd k ho hk he hh)
      · intro h; exact .bad _ _ (by decide) (.inr (.inr (.inr h)))
      · intro h; exact .bad _ _ (by decide) (.inr (.inl h))
      · exact .cut
    · intro h; exact .bad _ _ (by decide) (.inr (.inr (.inl h)))
    · intro h; exact .bad _ _ (by decide) (.inr (.inl h))
    · exact .cut

/-- The outcomes of SET CODE. -/
inductive CodeEff (A : Fault → Prop) (x : Ext) (i : In) (f : Flash) (r : Ram) :
    Outcome Reply → Flash → Ram → Prop
  | bad (sw : SW) (h : sw ≠ SW.ok) : CodeEff A x i f r (.done (.sw sw)) f r
  | io (b : Bool) (h : Io A f) : CodeEff A x i f r (.done ioErr) f { r with validated := b }
  | cut (h : A .cut) (r' : Ram) : CodeEff A x i f r .cut f r'
  | clear (o : OathFile) (ho : f.oath = some o) :
      CodeEff A x i f r (.done (.sw SW.ok)) { f with oath := some { o with key := some [] } }
        { r with validated := true }
  | set (o : OathFile) (ho : f.oath = some o) (k c resp : Bytes)
      (hp : PE.Ok (parseSetCode i.c.data) (some (k, c, resp))) (hm : x.hmac 1 k c = resp) :
      CodeEff A x i f r (.done (.sw SW.ok)) { f with oath := some { o with key := some k } }
        { r with validated := false }

theorem setCode_eff : wp A (setCode x i) (fun a => CodeEff A x i f r (.done a))
    (fun e => CodeEff A x i f r (.done e)) (CodeEff A x i f r .cut) f r := by
  simp only [setCode, Cmd.throw_bind]
  apply wp_ite
  · intro _; exact wp_throw (.bad _ (by decide))
  · intro _
    apply wp_bind
    apply wp_parse (parseSetCode_safe _)
    · intro a ha _
      cases a with
      | none =>
        apply wp_bind
        apply wp_mod
        apply wp_bind
        apply wp_wrOr
        · intro f' hf
          obtain ⟨o, ho, rfl⟩ := Option.map_eq_some_iff.mp hf
          exact wp_pure (.clear o ho)
        · intro hf; exact .io true (.inl (by simpa using hf))
        · intro h; exact .io true (.inr h)
        · intro h; exact .cut h _
      | some p =>
        obtain ⟨k, c, resp⟩ := p
        apply wp_ite
        · intro _; exact wp_throw (.bad _ (by decide))
        · intro hm
          have hm : x.hmac 1 k c = resp := by simpa using hm
          apply wp_bind
          apply wp_mod
          apply wp_bind
          apply wp_wrOr
          · intro f' hf
            obtain ⟨o, ho, rfl⟩ := Option.map_eq_some_iff.mp hf
            exact wp_pure (.set o ho k c resp ha hm)
          · intro hf; exact .io false (.inl (by simpa using hf))
          · intro h; exact .io false (.inr h)
          · intro h; exact .cut h _
    · intro sw hsw; exact .bad sw (parseSetCode_throws _ sw hsw)

/-- The outcomes of VALIDATE. -/
inductive ValEff (A : Fault → Prop) (x : Ext) (i : In) (f : Flash) (r : Ram) :
    Outcome Reply → Flash → Ram → Prop
  | bad (sw : SW) (h : sw ≠ SW.ok) : ValEff A x i f r (.done (.sw sw)) f r
  | cut (h : A .cut) : ValEff A x i f r .cut f r
  | wrong : ValEff A x i f r (.done (.sw SW.wrongData)) f { r with validated := false }
  | right (o : OathFile) (ho : f.oath = some o) (k resp c : Bytes) (hk : o.key = some k) (hne : k ≠ [])
      (hq : ValidateReq i.c.data resp c) (hm : x.hmac 1 k r.authChal = resp) :
      ValEff A x i f r (.done (.resp ([0x75, 20] ++ x.hmac 1 k c) SW.ok)) f { r with validated := true }

theorem validate_eff : wp A (validate x i) (fun a => ValEff A x i f r (.done a))
    (fun e => ValEff A x i f r (.done e)) (ValEff A x i f r .cut) f r := by
  simp only [validate, Cmd.throw_bind]
  apply wp_ite
  · intro _; exact wp_throw (.bad _ (by decide))
  · intro _
    apply wp_bind
    apply wp_parse (parseValidate_safe _)
    · rintro ⟨resp, c⟩ ha _
      have hq := (parseValidate_ok _ _ _).mp ha
      apply wp_bind
      apply wp_rdOr
      · intro k hk
        obtain ⟨o, ho, hk⟩ := Option.bind_eq_some_iff.mp hk
        apply wp_ite
        · intro _; exact wp_throw (.bad _ (by decide))
        · intro he
          have he : k ≠ [] := by simpa using he
          apply wp_bind
          apply wp_get
          apply wp_bind
          apply wp_mod
          by_cases hm : x.hmac 1 k r.authChal = resp
          · have hb : (x.hmac 1 k r.authChal == resp) = true := by simpa using hm
            simp only [hb, Bool.not_true, Bool.false_eq_true, if_false]
            exact wp_pure (.right o ho k resp c hk he hq hm)
          · have hb : (x.hmac 1 k r.authChal == resp) = false := by simpa using hm
            simp only [hb, Bool.not_false, if_true]
            exact wp_throw .wrong
      · intro _; exact .bad _ (by decide)
      · intro _; exact .bad _ (by decide)
      · exact .cut
    · intro sw hsw; exact .bad sw (parseValidate_throws _ sw hsw)

/-- RAM after assigning a touch slot. -/
def putSlot (p1 : Byte) (s : Slot) (r : Ram) : Ram :=
  if p1 = 1 then { r with slot0 := s } else { r with slot1 := s }

/-- Flash after saving the touch slots. -/
def savePass (f : Flash) (r : Ram) : Flash := { f with pass := some (r.slot0, r.slot1) }

/-- The outcomes of SET DEFAULT. -/
inductive DefEff (A : Fault → Prop) (i : In) (f : Flash) (r : Ram) :
    Outcome Reply → Flash → Ram → Prop
  | bad (sw : SW) (h : sw ≠ SW.ok) : DefEff A i f r (.done (.sw sw)) f r
  | io (h : Io A f) (s : Slot) : DefEff A i f r (.done ioErr) f (putSlot i.c.p1 s r)
  | cut (h : A .cut) (r' : Ram) : DefEff A i f r .cut f r'
  | done (o : OathFile) (n : Bytes) (j : Nat) (q : Rec) (hp : i.c.p1 = 1 ∨ i.c.p1 = 2)
      (ho : f.oath = some o) (hq : NameReq i.c.data n) (hj : o.recs[j]? = some q) (hn : q.name = n)
      (ht : ¬ Totp q) :
      DefEff A i f r (.done (.sw SW.ok))
        (savePass f (putSlot i.c.p1 (.oath (j * recSize) n i.c.p2) r))
        (putSlot i.c.p1 (.oath (j * recSize) n i.c.p2) r)

theorem setDefault_eff : wp A (setDefault i) (fun a => DefEff A i f r (.done a))
    (fun e => DefEff A i f r (.done e)) (DefEff A i f r .cut) f r := by
  simp only [setDefault, Cmd.throw_bind]
  apply wp_ite
  · intro _; exact wp_throw (.bad _ (by decide))
  · intro hp1
    have hp : i.c.p1 = 1 ∨ i.c.p1 = 2 := by
      simp only [Bool.and_eq_true, bne_iff_ne, ne_eq] at hp1
      exact Decidable.or_iff_not_not_and_not.mpr hp1
    apply wp_ite
    · intro _; exact wp_throw (.bad _ (by decide))
    · intro _
      apply wp_bind
      apply wp_parse (parseName_safe _)
      · intro n hn _
        have hq := (parseName_ok _ _).mp hn
        apply wp_bind
        apply wp_nRecords
        · intro o ho
          apply wp_bind
          apply wp_find ho
          · intro hn; exact wp_throw (.bad _ (by decide))
          · intro j q hj hjn
            simp only
            apply wp_ite
            · intro _; exact wp_throw (.bad _ (by decide))
            · intro ht
              have ht : ¬ Totp q := by simpa [Totp] using ht
              apply wp_bind
              apply wp_mod
              apply wp_bind
              apply wp_get
              apply wp_bind
              have hr : (if (i.c.p1 == 1) = true then { r with slot0 := .oath (j * recSize) q.name i.c.p2 }
                  else { r with slot1 := .oath (j * recSize) q.name i.c.p2 } : Ram)
                  = putSlot i.c.p1 (.oath (j * recSize) n i.c.p2) r := by
                simp [putSlot, hjn]
              rw [hr]
              apply wp_wrOr
              · intro f' hf
                cases hf
                exact wp_pure (.done o n j q hp ho hq hj hjn ht)
              · intro hf; cases hf
              · intro h; exact .io (.inr h) _
              · intro h; exact .cut h _
          · intro h
            exact .bad _ (by decide)
          · intro h; exact .cut h r
        · intro h; exact .bad _ (by decide)
        · intro h; exact .cut h r
      · intro sw hsw; exact .bad sw (parseName_throws _ sw hsw)

/-! ### All commands -/

/-- The outcomes of a command. -/
inductive ProcEff (A : Fault → Prop) (x : Ext) (i : In) (f : Flash) (r : Ram) :
    Outcome Reply → Flash → Ram → Prop
  | gate (hv : r.validated = false) (h : (i.c.ins ≠ 0xA4 ∧ i.c.ins ≠ 0xA3) ∨ (i.c.ins = 0xA4 ∧ i.c.p1 = 0)) :
      ProcEff A x i f r (.done (.sw SW.security)) f r
  | put (hv : r.validated = true) (hi : i.c.ins = 0x01) {o f' r'} (h : PutEff A i f r o f' r') :
      ProcEff A x i f r o f' r'
  | delete (hv : r.validated = true) (hi : i.c.ins = 0x02) {o f' r'} (h : DelEff A i f r o f' r') :
      ProcEff A x i f r o f' r'
  | setCode (hv : r.validated = true) (hi : i.c.ins = 0x03) {o f' r'} (h : CodeEff A x i f r o f' r') :
      ProcEff A x i f r o f' r'
  | rename (hv : r.validated = true) (hi : i.c.ins = 0x05) {o f' r'} (h : RenEff A i f r o f' r') :
      ProcEff A x i f r o f' r'
  | list (hv : r.validated = true) (hi : i.c.ins = 0xA1) {o f' r'}
      (h : ListEff A i f { r with idx := 0 } o f' r') : ProcEff A x i f r o f' r'
  | calculate (hv : r.validated = true) (hi : i.c.ins = 0xA2) {o f' r'}
      (h : CalcEff A x i f r o f' r') : ProcEff A x i f r o f' r'
  | validate (hi : i.c.ins = 0xA3) {o f' r'} (h : ValEff A x i f r o f' r') : ProcEff A x i f r o f' r'
  | select (hi : i.c.ins = 0xA4) (hp : i.c.p1 = 4) {o f' r'} (h : SelEff A i f r o f' r') :
      ProcEff A x i f r o f' r'
  | all (hv : r.validated = true) (hi : i.c.ins = 0xA4) (hp : i.c.p1 = 0) {o f' r'}
      (h : AllEff A x i f { r with idx := 0 } o f' r') : ProcEff A x i f r o f' r'
  | moreList (hv : r.validated = true) (hi : i.c.ins = 0xA5) (hr : r.rem = .list) {o f' r'}
      (h : ListEff A i f r o f' r') : ProcEff A x i f r o f' r'
  | moreAll (hv : r.validated = true) (hi : i.c.ins = 0xA5) (hr : r.rem = .calcFull ∨ r.rem = .calcTrunc)
      {o f' r'} (h : AllEff A x i f r o f' r') : ProcEff A x i f r o f' r'
  | setDefault (hv : r.validated = true) (hi : i.c.ins = 0x55) {o f' r'} (h : DefEff A i f r o f' r') :
      ProcEff A x i f r o f' r'
  | other (sw : SW) (h : sw ≠ SW.ok)
      (hi : i.c.ins ≠ 0x01 ∧ i.c.ins ≠ 0x02 ∧ i.c.ins ≠ 0x03 ∧ i.c.ins ≠ 0x05 ∧ i.c.ins ≠ 0xA1 ∧
        i.c.ins ≠ 0xA2 ∧ i.c.ins ≠ 0xA3)
      (h4 : i.c.ins = 0xA4 → i.c.p1 ≠ 0 ∧ i.c.p1 ≠ 4) (h5 : i.c.ins = 0xA5 → r.rem = .none)
      (h55 : i.c.ins ≠ 0x55) (hg : r.validated = false → i.c.ins = 0xA4) :
      ProcEff A x i f r (.done (.sw sw)) f r

theorem process_eff (hx : GoodHmac x) : wp A (process x i) (fun a => ProcEff A x i f r (.done a))
    (fun e => ProcEff A x i f r (.done e)) (ProcEff A x i f r .cut) f r := by
  simp only [process, Cmd.throw_bind, beq_iff_eq, bne_iff_ne, ne_eq]
  apply wp_bind
  apply wp_get
  apply wp_ite
  · intro h
    simp only [Bool.and_eq_true, Bool.not_eq_true', bne_iff_ne, ne_eq] at h
    exact wp_throw (.gate h.1.1 (.inl ⟨h.1.2, h.2⟩))
  · intro hg
    simp only [Bool.and_eq_true, Bool.not_eq_true', bne_iff_ne, ne_eq] at hg
    have hv : i.c.ins ≠ 0xA4 → i.c.ins ≠ 0xA3 → r.validated = true := by
      intro h1 h2
      cases hv : r.validated with
      | true => rfl
      | false => exact absurd ⟨⟨hv, h1⟩, h2⟩ hg
    apply wp_ite
    · intro hi
      exact wp_mono put_eff (fun _ _ _ => .put (hv (by rw [hi]; decide) (by rw [hi]; decide)) hi)
        (fun _ _ _ => .put (hv (by rw [hi]; decide) (by rw [hi]; decide)) hi)
        (fun _ _ => .put (hv (by rw [hi]; decide) (by rw [hi]; decide)) hi)
    intro n01
    apply wp_ite
    · intro hi
      have hv := hv (by rw [hi]; decide) (by rw [hi]; decide)
      exact wp_mono delete_eff (fun _ _ _ => .delete hv hi) (fun _ _ _ => .delete hv hi)
        (fun _ _ => .delete hv hi)
    intro n02
    apply wp_ite
    · intro hi
      have hv := hv (by rw [hi]; decide) (by rw [hi]; decide)
      exact wp_mono setCode_eff (fun _ _ _ => .setCode hv hi) (fun _ _ _ => .setCode hv hi)
        (fun _ _ => .setCode hv hi)
    intro n03
    apply wp_ite
    · intro hi
      have hv := hv (by rw [hi]; decide) (by rw [hi]; decide)
      exact wp_mono rename_eff (fun _ _ _ => .rename hv hi) (fun _ _ _ => .rename hv hi)
        (fun _ _ => .rename hv hi)
    intro n05
    apply wp_ite
    · intro hi
      have hv := hv (by rw [hi]; decide) (by rw [hi]; decide)
      apply wp_bind
      apply wp_mod
      exact wp_mono list_eff (fun _ _ _ => .list hv hi) (fun _ _ _ => .list hv hi)
        (fun _ _ => .list hv hi)
    intro nA1
    apply wp_ite
    · intro hi
      have hv := hv (by rw [hi]; decide) (by rw [hi]; decide)
      exact wp_mono (calculate_eff hx) (fun _ _ _ => .calculate hv hi) (fun _ _ _ => .calculate hv hi)
        (fun _ _ => .calculate hv hi)
    intro nA2
    apply wp_ite
    · intro hi
      exact wp_mono validate_eff (fun _ _ _ => .validate hi) (fun _ _ _ => .validate hi)
        (fun _ _ => .validate hi)
    intro nA3
    have hn : i.c.ins ≠ 0x01 ∧ i.c.ins ≠ 0x02 ∧ i.c.ins ≠ 0x03 ∧ i.c.ins ≠ 0x05 ∧ i.c.ins ≠ 0xA1 ∧
        i.c.ins ≠ 0xA2 ∧ i.c.ins ≠ 0xA3 := ⟨n01, n02, n03, n05, nA1, nA2, nA3⟩
    apply wp_ite
    · intro hi
      apply wp_ite
      · intro hp
        exact wp_mono select_eff (fun _ _ _ => .select hi hp) (fun _ _ _ => .select hi hp)
          (fun _ _ => .select hi hp)
      intro np4
      apply wp_ite
      · intro hp
        apply wp_ite
        · intro h
          exact wp_throw (.gate (by simpa using h) (.inr ⟨hi, hp⟩))
        · intro h
          have hv : r.validated = true := by simpa using h
          apply wp_bind
          apply wp_mod
          exact wp_mono (calculateAll_eff hx) (fun _ _ _ => .all hv hi hp) (fun _ _ _ => .all hv hi hp)
            (fun _ _ => .all hv hi hp)
      · intro np0
        exact wp_throw (.other _ (by decide) hn (fun _ => ⟨np0, np4⟩)
          (fun h => absurd (hi.symm.trans h) (by decide)) (fun h => absurd (hi.symm.trans h) (by decide))
          (fun _ => hi))
    intro nA4
    have hv := hv nA4 nA3
    apply wp_ite
    · intro hi
      unfold sendRemaining
      apply wp_bind
      apply wp_get
      cases hr : r.rem with
      | list =>
        exact wp_mono list_eff (fun _ _ _ => .moreList hv hi hr) (fun _ _ _ => .moreList hv hi hr)
          (fun _ _ => .moreList hv hi hr)
      | calcFull =>
        exact wp_mono (calculateAll_eff hx) (fun _ _ _ => .moreAll hv hi (.inl hr))
          (fun _ _ _ => .moreAll hv hi (.inl hr)) (fun _ _ => .moreAll hv hi (.inl hr))
      | calcTrunc =>
        exact wp_mono (calculateAll_eff hx) (fun _ _ _ => .moreAll hv hi (.inr hr))
          (fun _ _ _ => .moreAll hv hi (.inr hr)) (fun _ _ => .moreAll hv hi (.inr hr))
      | none =>
        exact wp_throw (.other _ (by decide) hn (fun h => absurd h nA4) (fun _ => hr)
          (fun h => absurd (hi.symm.trans h) (by decide)) (fun h => by rw [hv] at h; cases h))
    intro nA5
    apply wp_ite
    · intro hi
      exact wp_mono setDefault_eff (fun _ _ _ => .setDefault hv hi) (fun _ _ _ => .setDefault hv hi)
        (fun _ _ => .setDefault hv hi)
    · intro n55
      exact wp_throw (.other _ (by decide) hn (fun h => absurd h nA4) (fun h => absurd h nA5) n55
        (fun h => by rw [hv] at h; cases h))

/-! ### Touch slots, installation -/

/-- The outcomes of a touch. -/
inductive TouchEff (A : Fault → Prop) (x : Ext) (long : Bool) (f : Flash) (r : Ram) :
    Option Bytes → Flash → Ram → Prop
  | off (h : (if long then r.slot1 else r.slot0) = .off) : TouchEff A x long f r (some []) f r
  | static (pw : Bytes) (e : Byte) (h : (if long then r.slot1 else r.slot0) = .static pw e) :
      TouchEff A x long f r (some (pw ++ if e = 0 then [] else [0x0D])) f r
  | fails : TouchEff A x long f r none f r
  | hotp (n : Bytes) (e : Byte) (o : OathFile) (j : Nat) (q : Rec) (c : Bytes)
      (h : (if long then r.slot1 else r.slot0) = .oath (j * recSize) n e) (ho : f.oath = some o)
      (hj : o.recs[j]? = some q) (hn : q.name ≠ []) (ht : Hotp q)
      (hc : increaseCounter q.chal = some c) (f' : Flash)
      (hf : f' = setChal f o j q c ∨ (A .fail ∧ f' = f)) :
      TouchEff A x long f r (some (ascii q.digits.toNat (dynTrunc (mac x q c)) ++
        if e = 0 then [] else [0x0D])) f' r

theorem be4_dynTrunc (dig : Bytes) : num (be4 (dynTrunc dig)) = dynTrunc dig := by
  have h : dynTrunc dig < 2 ^ 31 := Nat.mod_lt _ (by decide)
  generalize dynTrunc dig = v at h
  simp [be4, num]
  omega

theorem touch_eff (hx : GoodHmac x) {long : Bool} : wp A (handleTouch x long) (TouchEff A x long f r)
    (fun _ _ _ => False) (fun f' _ => A .cut ∧ f' = f) f r := by
  unfold handleTouch
  apply wp_bind
  apply wp_get
  cases hs : (if long then r.slot1 else r.slot0) with
  | off => exact wp_pure (.off hs)
  | static pw e =>
    have := TouchEff.static (A := A) (x := x) (f := f) pw e hs
    apply wp_pure
    by_cases he : e = 0
    · simp only [he, bne_self_eq_false, Bool.false_eq_true, if_false]; simpa [he] using this
    · have : (e != 0) = true := by simpa using he
      simp only [this, if_true]; simpa [he] using TouchEff.static (A := A) (x := x) (f := f) pw e hs
  | oath off n e =>
    simp only
    apply wp_bind
    -- the calculation
    have hcalc : wp A (calculateByOffset x off)
        (fun a f' r' => r' = r ∧ ((a = none ∧ f' = f) ∨ ∃ o j q c, off = j * recSize ∧ f.oath = some o ∧
          o.recs[j]? = some q ∧ q.name ≠ [] ∧ Hotp q ∧ increaseCounter q.chal = some c ∧
          (f' = setChal f o j q c ∨ (A .fail ∧ f' = f)) ∧
          a = some (be4 (dynTrunc (mac x q c)), q.digits)))
        (fun _ _ _ => False) (fun f' _ => A .cut ∧ f' = f) f r := by
      unfold calculateByOffset
      simp only [bne_iff_ne, ne_eq, beq_iff_eq]
      apply wp_ite
      · intro _; exact wp_pure ⟨rfl, .inl ⟨rfl, rfl⟩⟩
      · intro hmod
        have hmod : off % recSize = 0 := Decidable.not_not.mp hmod
        apply wp_bind
        apply wp_rdF
        · intro _
          cases ho : f.oath with
          | none => exact wp_pure ⟨rfl, .inl ⟨rfl, rfl⟩⟩
          | some o =>
            simp only [Option.map_some]
            apply wp_ite
            · intro _; exact wp_pure ⟨rfl, .inl ⟨rfl, rfl⟩⟩
            · intro hlt
              have hj : off / recSize < o.recs.length :=
                (Nat.div_lt_iff_lt_mul (by decide)).mpr (by omega)
              apply wp_bind
              apply wp_rdF
              · intro _
                have hq : (f.oath.bind fun x => x.recs[off / recSize]?) = some o.recs[off / recSize] := by
                  simp [ho, hj]
                rw [hq]
                generalize hqq : o.recs[off / recSize] = q
                have hq' : o.recs[off / recSize]? = some q := by rw [← hqq]; simp [hj]
                simp only
                apply wp_ite
                · intro _; exact wp_pure ⟨rfl, .inl ⟨rfl, rfl⟩⟩
                · intro hne
                  have hne : q.name ≠ [] := by simpa using hne
                  apply wp_ite
                  · intro _; exact wp_pure ⟨rfl, .inl ⟨rfl, rfl⟩⟩
                  · intro _
                    apply wp_ite
                    · intro hh
                      cases hc : increaseCounter q.chal with
                      | none => exact wp_pure ⟨rfl, .inl ⟨rfl, rfl⟩⟩
                      | some c =>
                        have hoff : off = off / recSize * recSize := by
                          have := Nat.div_add_mod off recSize
                          rw [hmod] at this; rw [Nat.mul_comm]; omega
                        apply wp_bind
                        have ht : truncate (digest x q c) = .ok (be4 (dynTrunc (mac x q c))) :=
                          truncate_eq (hx _ _ _).1
                        apply wp_updChal ho hq'
                        · intro _
                          apply wp_bind
                          apply wp_mem ht
                          exact wp_pure ⟨rfl, .inr ⟨o, _, q, c, hoff, rfl, hq', hne, hh, hc,
                            .inl rfl, rfl⟩⟩
                        · intro hfail _
                          apply wp_bind
                          apply wp_mem ht
                          exact wp_pure ⟨rfl, .inr ⟨o, _, q, c, hoff, rfl, hq', hne, hh, hc,
                            .inr ⟨hfail, rfl⟩, rfl⟩⟩
                        · intro h; exact ⟨h, rfl⟩
                    · intro _; exact wp_pure ⟨rfl, .inl ⟨rfl, rfl⟩⟩
              · intro _; exact wp_pure ⟨rfl, .inl ⟨rfl, rfl⟩⟩
              · intro h; exact ⟨h, rfl⟩
        · intro _; exact wp_pure ⟨rfl, .inl ⟨rfl, rfl⟩⟩
        · intro h; exact ⟨h, rfl⟩
    refine wp_mono hcalc ?_ (fun _ _ _ h => h) (fun _ _ h => h)
    rintro a f' r' ⟨rfl, (⟨rfl, rfl⟩ | ⟨o, j, q, c, rfl, ho, hj, hn, hh, hc, hf, rfl⟩)⟩
    · exact wp_pure .fails
    · apply wp_pure
      have := TouchEff.hotp (A := A) (x := x) n e o j q c hs ho hj hn hh hc f' hf
      rw [digitsOf_eq, beVal_eq, be4_dynTrunc]
      by_cases he : e = 0
      · simpa [he] using this
      · simpa [he] using this

/-- The outcomes of the boot-time installation. -/
inductive InstEff (A : Fault → Prop) (reset : Bool) (f : Flash) : Outcome Reply → Flash → Prop
  | keep (o : OathFile) (h : f.oath = some o) (hr : reset = false) : InstEff A reset f (.done (.sw SW.ok)) f
  | io (sw : SW) (h : A .fail) : InstEff A reset f (.done (.sw sw)) f
  | cut (h : A .cut) : InstEff A reset f .cut f
  | wiped (h : reset = true ∨ f.oath = none ∨ A .fail) (out : Outcome Reply) (k : OathFile)
      (hk : k.recs = []) (hkey : k.key = some [] ∨ out ≠ .done (.sw SW.ok)) :
      InstEff A reset f out { f with oath := some k }

theorem install_eff {reset : Bool} {rnd : Bytes} :
    wp A (install reset rnd) (fun a f' r' => r' = poweroff r ∧ InstEff A reset f (.done a) f')
    (fun e f' r' => r' = poweroff r ∧ InstEff A reset f (.done e) f') (fun f' _ => InstEff A reset f .cut f') f r := by
  simp only [install, Cmd.throw_bind]
  apply wp_bind
  apply wp_mod
  apply wp_bind
  have hwipe : (reset = true ∨ f.oath = none ∨ A .fail) → wp A (do
      Cmd.wrOr (fun f => some { f with oath := some { (f.oath.getD ⟨[], none, none⟩) with recs := [] } }) ioErr
      Cmd.wrOr (fun f => f.oath.map fun o => { f with oath := some { o with key := some [] } }) ioErr
      Cmd.wrOr (fun f => f.oath.map fun o => { f with oath := some { o with handle := some rnd } }) ioErr
      return .sw SW.ok) (fun a f' r' => r' = poweroff r ∧ InstEff A reset f (.done a) f')
    (fun e f' r' => r' = poweroff r ∧ InstEff A reset f (.done e) f') (fun f' _ => InstEff A reset f .cut f')
      f (poweroff r) := by
    intro h
    apply wp_bind
    apply wp_wrOr
    · intro f1 hf1
      cases hf1
      apply wp_bind
      apply wp_wrOr
      · intro f2 hf2
        simp only [Option.map_some, Option.some.injEq] at hf2
        subst hf2
        apply wp_bind
        apply wp_wrOr
        · intro f3 hf3
          simp only [Option.map_some, Option.some.injEq] at hf3
          subst hf3
          exact wp_pure ⟨rfl, .wiped h _ _ rfl (.inl rfl)⟩
        · intro hf3; simp at hf3
        · intro _; exact ⟨rfl, .wiped h _ _ rfl (.inl rfl)⟩
        · intro _; exact .wiped h _ _ rfl (.inl rfl)
      · intro hf2; simp at hf2
      · intro _; exact ⟨rfl, .wiped h _ _ rfl (.inr (by simp [ioErr, Reply.sw]; decide))⟩
      · intro _; exact .wiped h _ _ rfl (.inr (by simp))
    · intro hf1; cases hf1
    · intro hf; exact ⟨rfl, .io _ hf⟩
    · exact .cut
  apply wp_rdF
  · intro _
    cases ho : f.oath with
    | none =>
      rw [if_neg (by simp)]
      exact hwipe (.inr (.inl ho))
    | some o =>
      cases reset with
      | true => rw [if_neg (by simp)]; exact hwipe (.inl rfl)
      | false =>
        rw [if_pos (by simp)]
        exact wp_pure ⟨rfl, .keep o ho rfl⟩
  · intro hf
    rw [if_neg (by simp)]
    exact hwipe (.inr (.inr hf))
  · exact .cut

/-- `pass_install` does not touch the OATH file. -/
inductive PassInstEff (reset : Bool) (f : Flash) (r : Ram) : Outcome Reply → Flash → Ram → Prop
  | mk (out : Outcome Reply) (f' : Flash) (r' : Ram) (hf : f'.oath = f.oath)
      (hr : ∃ s0 s1, r' = { r with slot0 := s0, slot1 := s1 } ∧
        ((s0 = r.slot0 ∧ s1 = r.slot1) ∨ (s0 = .off ∧ s1 = .off) ∨ f.pass = some (s0, s1)))
      (hp : f'.pass = f.pass ∨ f'.pass = some (.off, .off)) : PassInstEff reset f r out f' r'

theorem passInstall_eff {reset : Bool} :
    wp A (passInstall reset) (fun a => PassInstEff reset f r (.done a))
    (fun e => PassInstEff reset f r (.done e)) (PassInstEff reset f r .cut) f r := by
  unfold passInstall
  apply wp_bind
  have hz : wp A (do
      Cmd.mod fun r => { r with slot0 := .off, slot1 := .off }
      let r ← Cmd.get
      Cmd.wrOr (updPass r) ioErr
      return .sw SW.ok) (fun a => PassInstEff reset f r (.done a))
      (fun e => PassInstEff reset f r (.done e)) (PassInstEff reset f r .cut) f r := by
    apply wp_bind
    apply wp_mod
    apply wp_bind
    apply wp_get
    apply wp_bind
    apply wp_wrOr
    · intro f' hf
      cases hf
      exact wp_pure (.mk _ _ _ rfl ⟨.off, .off, rfl, .inr (.inl ⟨rfl, rfl⟩)⟩ (.inr rfl))
    · intro hf; cases hf
    · intro _; exact (PassInstEff.mk _ _ _ rfl ⟨.off, .off, rfl, .inr (.inl ⟨rfl, rfl⟩)⟩ (.inl rfl))
    · intro _; exact (PassInstEff.mk _ _ _ rfl ⟨.off, .off, rfl, .inr (.inl ⟨rfl, rfl⟩)⟩ (.inl rfl))
  apply wp_rdF
  · intro _
    by_cases hc : (reset || f.pass.isNone) = true
    · rw [if_pos hc]; exact hz
    · rw [if_neg hc]
      apply wp_bind
      apply wp_rdOr
      · rintro ⟨s0, s1⟩ hs
        apply wp_bind
        apply wp_mod
        exact wp_pure (.mk _ _ _ rfl ⟨s0, s1, rfl, .inr (.inr hs)⟩ (.inl rfl))
      · intro _; exact (PassInstEff.mk _ _ _ rfl ⟨r.slot0, r.slot1, rfl, .inl ⟨rfl, rfl⟩⟩ (.inl rfl))
      · intro _; exact (PassInstEff.mk _ _ _ rfl ⟨r.slot0, r.slot1, rfl, .inl ⟨rfl, rfl⟩⟩ (.inl rfl))
      · intro _; exact (PassInstEff.mk _ _ _ rfl ⟨r.slot0, r.slot1, rfl, .inl ⟨rfl, rfl⟩⟩ (.inl rfl))
  · intro _
    rw [if_pos (by simp)]
    exact hz
  · intro _; exact (PassInstEff.mk _ _ _ rfl ⟨r.slot0, r.slot1, rfl, .inl ⟨rfl, rfl⟩⟩ (.inl rfl))

/-- The outcomes of the pass configuration command. -/
inductive PassWriteEff (A : Fault → Prop) (c : Verif.Apdu.Capdu) (f : Flash) (r : Ram) :
    Outcome Reply → Flash → Ram → Prop
  | bad (sw : SW) (h : sw ≠ SW.ok) : PassWriteEff A c f r (.done (.sw sw)) f r
  | io (h : A .fail) (s : Slot) (hs : PE.Ok (parsePass c.data) s) :
      PassWriteEff A c f r (.done ioErr) f (putSlot c.p1 s r)
  | cut (h : A .cut) (r' : Ram) : PassWriteEff A c f r .cut f r'
  | done (s : Slot) (hs : PE.Ok (parsePass c.data) s) (hp : c.p1 = 1 ∨ c.p1 = 2) :
      PassWriteEff A c f r (.done (.sw SW.ok)) (savePass f (putSlot c.p1 s r)) (putSlot c.p1 s r)

theorem passWrite_eff {c : Verif.Apdu.Capdu} :
    wp A (passWrite c) (fun a => PassWriteEff A c f r (.done a))
    (fun e => PassWriteEff A c f r (.done e)) (PassWriteEff A c f r .cut) f r := by
  simp only [passWrite, Cmd.throw_bind]
  apply wp_ite
  · intro _; exact wp_throw (.bad _ (by decide))
  · intro hp1
    have hp : c.p1 = 1 ∨ c.p1 = 2 := by
      simp only [Bool.and_eq_true, bne_iff_ne, ne_eq] at hp1
      exact Decidable.or_iff_not_not_and_not.mpr hp1
    apply wp_bind
    apply wp_parse (parsePass_safe _)
    · intro s hs _
      apply wp_bind
      apply wp_mod
      have hr : (if (c.p1 == 1) = true then { r with slot0 := s } else { r with slot1 := s } : Ram)
          = putSlot c.p1 s r := by simp [putSlot]
      rw [hr]
      apply wp_bind
      apply wp_get
      apply wp_bind
      apply wp_wrOr
      · intro f' hf; cases hf; exact wp_pure (.done s hs hp)
      · intro hf; cases hf
      · intro h; exact .io h s hs
      · intro h; exact .cut h _
    · intro sw hsw; exact .bad sw (parsePass_throws _ sw hsw)

end Verif.Oath
