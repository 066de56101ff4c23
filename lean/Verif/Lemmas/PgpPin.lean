import Verif.Lemmas.Pgp
/-
Effects of CHANGE REFERENCE DATA and RESET RETRY COUNTER.
-/
set_option linter.unusedSimpArgs false
namespace Verif.Pgp
open Cmd Verif.Spec.Pgp Verif.KeyFile

variable {A : Fault → Prop} {x : Ext} {i : In} {f : Flash} {r : Ram}

/-- The length of the candidate. -/
def candLen (i : In) : Option Nat → UInt8
  | none => 255
  | some n => UInt8.ofNat (min i.c.lc n)

/-- What stops the command after the first check. -/
def stop (junk : Byte) (rc : Pin.Rc) (ctr : Option UInt8) : Option Reply :=
  if rc = .ioFail then some ioErr
  else if ctr.getD junk = 0 then some (.sw 0x6983)
  else if rc = .authFail then some (.sw 0x6982)
  else none

/-- The outcomes of the check of the old PIN. -/
inductive FirstEff (A : Fault → Prop) (x : Ext) (i : In) (w : Which) (size : Option Nat) (f : Flash) (r : Ram) :
    Option Reply → Flash → Ram → Prop
  | mk (rc : Pin.Rc) (ctr : Option UInt8) (p : Pin.Flash) (q : Pin.Ram)
      (h : Pin.VerEff A (pinCfg x w) i.c.data (candLen i size) ((partF w).get f) (rc, ctr) p q) :
      FirstEff A x i w size f r (stop i.junk rc ctr) ((partF w).set p f) ((partR w).set q r)

theorem verifyFirst_wp (hx : x.Ok) (w : Which) (size : Option Nat) :
    wp A (verifyFirst x i w size) (fun _ => FirstEff A x i w size f r none)
      (fun e => FirstEff A x i w size f r (some e)) (fun f' _ => A .cut ∧ f' = f) f r := by
  unfold verifyFirst
  apply wp_bind
  have hb : Pin.lenOk (pinCfg x w) (candLen i size) → (candLen i size).toNat ≤ i.c.data.length := by
    cases size with
    | none => exact fun h => absurd h not_lenOk_255
    | some n =>
      intro _
      simp only [candLen, UInt8.toNat_ofNat', Apdu.Capdu.lc]
      exact Nat.le_trans (Nat.mod_le _ _) (Nat.min_le_left _ _)
  apply wp_onPin (Pin.verify_wp' (A := A) (cfg_ok hx _) hb)
  · rintro ⟨rc, ctr⟩ p q h
    have key := FirstEff.mk (f := f) (r := r) rc ctr p q h
    by_cases h1 : rc = .ioFail
    · subst h1
      exact wp_throw (by simpa [stop] using key)
    · show wp A (if rc == Pin.Rc.ioFail then throw _ else _) _ _ _ _ _
      rw [if_neg (by simpa using h1)]
      simp only [stop, if_neg h1] at key
      by_cases h2 : ctr.getD i.junk = 0
      · rw [if_pos h2] at key
        show wp A (if ctr.getD i.junk == 0 then throw _ else _) _ _ _ _ _
        rw [if_pos (by simpa using h2)]
        exact wp_throw key
      · rw [if_neg h2] at key
        show wp A (if ctr.getD i.junk == 0 then throw _ else _) _ _ _ _ _
        rw [if_neg (by simpa using h2)]
        by_cases h3 : rc = .authFail
        · rw [if_pos h3] at key
          show wp A (if rc == Pin.Rc.authFail then throw _ else _) _ _ _ _ _
          rw [if_pos (by simpa using h3)]
          exact wp_throw key
        · rw [if_neg h3] at key
          show wp A (if rc == Pin.Rc.authFail then throw _ else _) _ _ _ _ _
          rw [if_neg (by simpa using h3)]
          exact wp_pure key
  · rintro p q ⟨h, rfl⟩
    rw [set_get_F]
    exact ⟨h, rfl⟩

/-- The new PIN: the rest of the data. -/
def newPin (i : In) : Option Nat → Bytes
  | none => (i.before.getD 0) :: i.c.data
  | some n => i.c.data.drop n

/-- Its length, converted to a byte. -/
def newLen (i : In) : Option Nat → UInt8
  | none => UInt8.ofNat (i.c.lc + 1)
  | some n => UInt8.ofNat (i.c.lc - n)

/-- What the second half answers. -/
def updReply : Pin.Rc → Reply
  | .ioFail => ioErr
  | .lengthInvalid => .sw 0x6700
  | _ => .sw 0x9000

/-- The outcomes of the second half. -/
inductive RestEff (A : Fault → Prop) (x : Ext) (i : In) (w : Which) (size : Option Nat) (f : Flash) (r : Ram) :
    Outcome Reply → Flash → Ram → Prop
  | ub (h : size = none) : RestEff A x i w size f r (.done (.ub .oob)) f r
  | short (n : Nat) (h : size = some n) (hl : i.c.lc < n) : RestEff A x i w size f r (.done (.sw 0x6700)) f r
  | upd (h : ∀ n, size = some n → n ≤ i.c.lc) (rc : Pin.Rc) (p : Pin.Flash) (q : Pin.Ram)
      (hu : Pin.UpdEff A (pinCfg x w) (newPin i size) (newLen i size) ((partF w).get f) ((partR w).get r) rc p q) :
      RestEff A x i w size f r (.done (updReply rc)) ((partF w).set p f) ((partR w).set q r)
  | cut (hc : A .cut) (f' : Flash) (r' : Ram) (h : ∀ n, size = some n → n ≤ i.c.lc)
      (hf : f' = f ∨ Pin.lenOk (pinCfg x w) (newLen i size) ∧
        f' = (partF w).set (some (Pin.withData ((partF w).get f) ((newPin i size).take (newLen i size).toNat))) f) :
      RestEff A x i w size f r .cut f' r'

theorem updTail_wp {α : Type} {Q : Unit → Flash → Ram → Prop} {E : Reply → Flash → Ram → Prop} {X : Flash → Ram → Prop}
    (a : α) {rc : Pin.Rc} (hok : rc = .ok → Q () f r)
    (hE : ∀ e, rc ≠ .ok → e = updReply rc → E e f r) (hn : rc ≠ .authFail) :
    wp A (do
      if rc == .ioFail then throw ioErr
      if rc == .lengthInvalid then throw (.sw SW.wrongLength) : M Unit) Q E X f r := by
  cases rc with
  | ok => exact wp_pure (hok rfl)
  | ioFail => exact wp_throw (hE _ (by decide) rfl)
  | lengthInvalid => exact wp_throw (hE _ (by decide) rfl)
  | authFail => exact absurd rfl hn

theorem updateRest_wp (w : Which) (size : Option Nat) :
    wp A (updateRest x i w size) (fun _ => RestEff A x i w size f r (.done (.sw 0x9000)))
      (fun e => RestEff A x i w size f r (.done e)) (RestEff A x i w size f r .cut) f r := by
  unfold updateRest
  have main : ∀ (b : Bytes) (l : UInt8) (_ : b = newPin i size) (_ : l = newLen i size)
      (_ : ∀ n, size = some n → n ≤ i.c.lc),
      wp A (onPin w (Pin.update (pinCfg x w) b l))
        (fun rc f' r' => wp A (do
            if rc == .ioFail then throw ioErr
            if rc == .lengthInvalid then throw (.sw SW.wrongLength) : M Unit)
          (fun _ => RestEff A x i w size f r (.done (.sw 0x9000))) (fun e => RestEff A x i w size f r (.done e))
          (RestEff A x i w size f r .cut) f' r')
        (fun e => RestEff A x i w size f r (.done e)) (RestEff A x i w size f r .cut) f r := by
    intro b l hb hl hs
    subst hb; subst hl
    apply wp_onPin (Pin.update_wp (A := A))
    · intro rc p q h
      have key := RestEff.upd (f := f) (r := r) hs rc p q h
      refine updTail_wp () ?_ ?_ ?_
      · intro e; subst e; exact key
      · intro e _ he; subst he; exact key
      · intro e; subst e; cases h
    · rintro p q ⟨h, hf⟩
      refine .cut h _ _ hs ?_
      rcases hf with rfl | ⟨hl, rfl⟩
      · exact .inl (set_get_F)
      · exact .inr ⟨hl, rfl⟩
  cases size with
  | none =>
    cases hb : i.before with
    | none => exact wp_bind (wp_throw (.ub rfl))
    | some b =>
      exact wp_bind (main (b :: i.c.data) _ (by simp [newPin, hb]) rfl (fun n h => by cases h))
  | some n =>
    apply wp_ite <;> intro h
    · exact wp_bind (wp_throw (.short n rfl h))
    · exact wp_bind (main _ _ rfl rfl (fun m h => by cases h; omega))

/-- The outcomes of a check of the old PIN `w` followed by an update of `w'`. -/
inductive ChEff (A : Fault → Prop) (x : Ext) (i : In) (w w' : Which) (f : Flash) (r : Ram) :
    Outcome Reply → Flash → Ram → Prop
  | cut (h : A .cut) (r' : Ram) : ChEff A x i w w' f r .cut f r'
  | stop (size : Option Nat) (hs : size = ((partF w).get f).map (·.data.length) ∨ A .fail ∧ size = none)
      (e : Reply) (f' : Flash) (r' : Ram) (h : FirstEff A x i w size f r (some e) f' r') :
      ChEff A x i w w' f r (.done e) f' r'
  | upd (size : Option Nat) (hs : size = ((partF w).get f).map (·.data.length) ∨ A .fail ∧ size = none)
      (f1 : Flash) (r1 : Ram) (h : FirstEff A x i w size f r none f1 r1) (o : Outcome Reply) (f' : Flash) (r' : Ram)
      (h' : RestEff A x i w' size f1 r1 o f' r') : ChEff A x i w w' f r o f' r'

theorem checked_wp (hx : x.Ok) (w w' : Which) (size : Option Nat)
    (hs : size = ((partF w).get f).map (·.data.length) ∨ A .fail ∧ size = none) :
    wp A (do
      verifyFirst x i w size
      updateRest x i w' size
      return .sw SW.ok : M Reply) (fun a => ChEff A x i w w' f r (.done a))
      (fun a => ChEff A x i w w' f r (.done a)) (ChEff A x i w w' f r .cut) f r := by
  apply wp_bind
  refine wp_mono (verifyFirst_wp hx w size) ?_ ?_ ?_
  · intro _ f1 r1 h
    apply wp_bind
    refine wp_mono (updateRest_wp w' size) ?_ ?_ ?_
    · exact fun _ f' r' h' => wp_pure (.upd size hs f1 r1 h _ _ _ h')
    · exact fun e f' r' h' => .upd size hs f1 r1 h _ _ _ h'
    · exact fun f' r' h' => .upd size hs f1 r1 h _ _ _ h'
  · exact fun e f' r' h => .stop size hs _ _ _ h
  · rintro f' r' ⟨h, rfl⟩
    exact .cut h _

/-- The outcomes of CHANGE REFERENCE DATA. -/
inductive ChangeEff (A : Fault → Prop) (x : Ext) (i : In) (f : Flash) (r : Ram) : Outcome Reply → Flash → Ram → Prop
  | param : ChangeEff A x i f r (.done (.sw 0x6A86)) f r
  | pw1 (hp1 : i.c.p1 = 0) (hp2 : i.c.p2 = 0x81) (o : Outcome Reply) (f' : Flash) (r' : Ram)
      (h : ChEff A x i .pw1 .pw1 f { r with m81 := false, m82 := false } o f' r') : ChangeEff A x i f r o f' r'
  | pw3 (hp1 : i.c.p1 = 0) (hp2 : i.c.p2 = 0x83) (o : Outcome Reply) (f' : Flash) (r' : Ram)
      (h : ChEff A x i .pw3 .pw3 f r o f' r') : ChangeEff A x i f r o f' r'

theorem changeRef_wp (hx : x.Ok) : wp A (changeRef x i) (fun a => ChangeEff A x i f r (.done a))
    (fun a => ChangeEff A x i f r (.done a)) (ChangeEff A x i f r .cut) f r := by
  unfold changeRef
  apply wp_ite <;> intro h1
  · exact wp_throw .param
  have h1 : i.c.p1 = 0 := by simpa using h1
  apply wp_ite <;> intro h2
  · have h2 : i.c.p2 = 0x81 := by simpa using h2
    apply wp_bind; apply wp_mod
    apply wp_bind
    apply wp_onPin (Pin.rdSize_wp (A := A))
    · rintro n p q ⟨hs, rfl, rfl⟩
      rw [set_get_F, set_get_R]
      refine wp_mono (checked_wp hx .pw1 .pw1 n hs) ?_ ?_ ?_
      · exact fun _ _ _ h => .pw1 h1 h2 _ _ _ h
      · exact fun _ _ _ h => .pw1 h1 h2 _ _ _ h
      · exact fun _ _ h => .pw1 h1 h2 _ _ _ h
    · rintro p q ⟨h, rfl, rfl⟩
      rw [set_get_F, set_get_R]
      exact .pw1 h1 h2 _ _ _ (.cut h _)
  · apply wp_ite <;> intro h3
    · have h3 : i.c.p2 = 0x83 := by simpa using h3
      apply wp_bind
      apply wp_onPin (Pin.rdSize_wp (A := A))
      · rintro n p q ⟨hs, rfl, rfl⟩
        rw [set_get_F, set_get_R]
        refine wp_mono (checked_wp hx .pw3 .pw3 n hs) ?_ ?_ ?_
        · exact fun _ _ _ h => .pw3 h1 h3 _ _ _ h
        · exact fun _ _ _ h => .pw3 h1 h3 _ _ _ h
        · exact fun _ _ h => .pw3 h1 h3 _ _ _ h
      · rintro p q ⟨h, rfl, rfl⟩
        rw [set_get_F, set_get_R]
        exact .pw3 h1 h3 _ _ _ (.cut h _)
    · exact wp_throw .param

theorem needAdmin_wp {Q : Unit → Flash → Ram → Prop} {E : Reply → Flash → Ram → Prop} {X : Flash → Ram → Prop}
    (hQ : r.pw3.validated = true → Q () f r) (hE : r.pw3.validated = false → E (.sw 0x6982) f r) :
    wp A needAdmin Q E X f r := by
  unfold needAdmin
  apply wp_bind; apply wp_get
  apply wp_ite <;> intro h
  · exact wp_throw (hE (by simpa using h))
  · exact wp_pure (hQ (by simpa using h))

/-- The outcomes of RESET RETRY COUNTER. -/
inductive RrcEff (A : Fault → Prop) (x : Ext) (i : In) (f : Flash) (r : Ram) : Outcome Reply → Flash → Ram → Prop
  | bad (sw : Nat) (h : sw ∈ [0x6A86, 0x6982]) : RrcEff A x i f r (.done (.sw sw)) f r
  | rc (hp1 : i.c.p1 = 0) (hp2 : i.c.p2 = 0x81) (hz : ((partF .rc).get f).map (·.data) ≠ some [] ∨ A .fail)
      (o : Outcome Reply) (f' : Flash) (r' : Ram)
      (h : ChEff A x i .rc .pw1 f r o f' r') : RrcEff A x i f r o f' r'
  | admin (hp1 : i.c.p1 = 2) (hp2 : i.c.p2 = 0x81) (hv : r.pw3.validated = true) (o : Outcome Reply) (f' : Flash)
      (r' : Ram) (h : RestEff A x i .pw1 (some 0) f r o f' r') : RrcEff A x i f r o f' r'
  | cut (h : A .cut) (r' : Ram) : RrcEff A x i f r .cut f r'

theorem resetRetry_wp (hx : x.Ok) : wp A (resetRetry x i) (fun a => RrcEff A x i f r (.done a))
    (fun a => RrcEff A x i f r (.done a)) (RrcEff A x i f r .cut) f r := by
  unfold resetRetry
  apply wp_ite <;> intro h1
  · exact wp_throw (.bad _ (by decide))
  have h2 : i.c.p2 = 0x81 := by simp at h1; exact h1.2
  apply wp_ite <;> intro h3
  · have h3 : i.c.p1 = 0 := by simpa using h3
    apply wp_bind
    apply wp_onPin (Pin.rdSize_wp (A := A))
    · rintro n p q ⟨hs, rfl, rfl⟩
      rw [set_get_F, set_get_R]
      apply wp_ite <;> intro h4
      · exact wp_throw (.bad _ (by decide))
      have h4 : n ≠ some 0 := by simpa using h4
      have hz : ((partF .rc).get f).map (·.data) ≠ some [] ∨ A .fail := by
        rcases hs with rfl | ⟨hA, _⟩
        · left
          intro e
          apply h4
          obtain ⟨q, hq, hd⟩ := Option.map_eq_some_iff.mp e
          rw [hq]; simp [hd]
        · exact .inr hA
      refine wp_mono (checked_wp hx .rc .pw1 n hs) ?_ ?_ ?_
      · exact fun _ _ _ h => .rc h3 h2 hz _ _ _ h
      · exact fun _ _ _ h => .rc h3 h2 hz _ _ _ h
      · exact fun _ _ h => .rc h3 h2 hz _ _ _ h
    · rintro p q ⟨h, rfl, rfl⟩
      rw [set_get_F, set_get_R]
      exact .cut h _
  · have h3 : i.c.p1 = 2 := by
      simp at h1 h3
      exact h1.1 h3
    apply wp_bind
    apply needAdmin_wp
    · intro hv
      apply wp_bind
      refine wp_mono (updateRest_wp .pw1 (some 0)) ?_ ?_ ?_
      · exact fun _ _ _ h => wp_pure (.admin h3 h2 hv _ _ _ h)
      · exact fun _ _ _ h => .admin h3 h2 hv _ _ _ h
      · exact fun _ _ h => .admin h3 h2 hv _ _ _ h
    · intro _
      exact .bad _ (by decide)

end Verif.Pgp
