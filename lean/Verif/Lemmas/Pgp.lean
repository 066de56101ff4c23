import Verif.Base.Tac
import Verif.Base.Calc
import Verif.Spec.Pgp
import Verif.Lemmas.PinEff
/-
Effects of the OpenPGP commands: PINs and reading.
-/
set_option linter.unusedSimpArgs false
namespace Verif.Pgp
open Cmd Verif.Spec.Pgp Verif.KeyFile

variable {A : Fault → Prop} {x : Ext} {i : In} {f : Flash} {r : Ram}

/-- The command was refused without response data, or is undefined behaviour. -/
def Bad (o : Outcome Reply) : Prop := (∃ u, o = .done (.ub u)) ∨ ∃ sw, sw ≠ 0x9000 ∧ o = .done (.sw sw)

theorem bad_sw {sw : Nat} (h : sw ≠ 0x9000) : Bad (.done (.sw sw)) := .inr ⟨sw, h, rfl⟩
theorem bad_io : Bad (.done ioErr) := .inr ⟨0x6900, by decide, rfl⟩
theorem bad_ub {u : Ub} : Bad (.done (.ub u)) := .inl ⟨u, rfl⟩

theorem wp_onPin {α : Type} {w : Which} {m : Pin.M α} {Q : α → Flash → Ram → Prop} {E : Reply → Flash → Ram → Prop}
    {X : Flash → Ram → Prop} {P : α → Pin.Flash → Pin.Ram → Prop} {Y : Pin.Flash → Pin.Ram → Prop}
    (h : wp A (Cmd.lift m : Cmd Pin.Flash Pin.Ram Reply α) P (fun _ _ _ => False) Y
      ((partF w).get f) ((partR w).get r))
    (hQ : ∀ a p q, P a p q → Q a ((partF w).set p f) ((partR w).set q r))
    (hX : ∀ p q, Y p q → X ((partF w).set p f) ((partR w).set q r)) :
    wp A (onPin w m) Q E X f r := by
  unfold onPin
  apply wp_zoom
  exact wp_mono h (fun a p q h => hQ a p q h) (fun _ _ _ h => h.elim) (fun p q h => hX p q h)

@[simp] theorem set_get_F {w : Which} : (partF w).set ((partF w).get f) f = f := by cases w <;> rfl
@[simp] theorem set_get_R {w : Which} : (partR w).set ((partR w).get r) r = r := by cases w <;> rfl
@[simp] theorem get_set_F {w : Which} {p : Pin.Flash} : (partF w).get ((partF w).set p f) = p := by cases w <;> rfl
@[simp] theorem get_set_R {w : Which} {p : Pin.Ram} : (partR w).get ((partR w).set p r) = p := by cases w <;> rfl

/-- `memcmp_s` of different buffers is neither 0 nor 1. -/
def Ext.Ok (x : Ext) : Prop := x.neq ≠ 0 ∧ x.neq ≠ 1

theorem cfg_ok (hx : x.Ok) (w : Which) : (pinCfg x w).Ok := by cases w <;> exact hx

theorem lenOk_le {w : Which} {l : UInt8} (h : Pin.lenOk (pinCfg x w) l) : l.toNat ≤ 64 := by
  have := UInt8.le_iff_toNat_le.1 h.2
  cases w <;> exact this

theorem lenOk_ge {w : Which} {l : UInt8} (h : Pin.lenOk (pinCfg x w) l) : 6 ≤ l.toNat := by
  have := UInt8.le_iff_toNat_le.1 h.1
  cases w
  · exact this
  · exact Nat.le_trans (show 6 ≤ (8 : UInt8).toNat by decide) this
  · exact Nat.le_trans (show 6 ≤ (8 : UInt8).toNat by decide) this

theorem not_lenOk_255 {w : Which} : ¬ Pin.lenOk (pinCfg x w) 255 := fun h => by
  have := lenOk_le h
  simp at this

/-! ### Variables -/

/-- The variables that matter for access are the same. -/
structure Same (r r' : Ram) : Prop where
  m81 : r'.m81 = r.m81
  m82 : r'.m82 = r.m82
  pw3 : r'.pw3 = r.pw3
  touch : r'.lastTouch = r.lastTouch

theorem Same.rfl' : Same r r := ⟨rfl, rfl, rfl, rfl⟩

/-- Only the state of the certificate commands differs. -/
def Trk (r r' : Ram) : Prop := ∃ s o, r' = { r with state := s, occ := o }

theorem Trk.same {r r' : Ram} (h : Trk r r') : Same r r' := by
  obtain ⟨s, o, rfl⟩ := h; exact ⟨rfl, rfl, rfl, rfl⟩

theorem track_trk {c : Apdu.Capdu} {r' : Ram} (h : track c r = some r') : Trk r r' := by
  have e : ∀ q : Ram, q = { q with state := q.state, occ := q.occ } := fun q => rfl
  unfold track at h
  simp only at h
  repeat' split at h
  all_goals first
    | (cases h; done)
    | (cases h; exact ⟨_, _, rfl⟩)
    | (cases h; exact ⟨_, _, e _⟩)

/-! ### Reading -/

/-- Exits of commands that read. -/
def Rd (f : Flash) (r : Ram) (a : Reply) (f' : Flash) (r' : Ram) : Prop :=
  f' = f ∧ Same r r' ∧ (Bad (.done a) ∨ ∃ d, a = .resp d 0x9000)

/-- A command that reads. -/
abbrev Reads (A : Fault → Prop) (m : M Reply) (f : Flash) (r : Ram) : Prop :=
  wp A m (Rd f r) (Rd f r) (fun f' _ => f' = f ∧ A .cut) f r

/-- Closes exits without effect. -/
macro "rds" : tactic => `(tactic| first
  | exact ⟨rfl, .rfl', .inl (bad_sw (by decide))⟩
  | exact ⟨rfl, .rfl', .inl bad_io⟩
  | exact ⟨rfl, .rfl', .inl bad_ub⟩
  | exact ⟨rfl, .rfl', .inr ⟨_, rfl⟩⟩
  | exact ⟨rfl, ‹_›⟩)

theorem select_wp (c : Apdu.Capdu) : Reads A (select c) f r := by
  unfold select getAttr
  wps
  all_goals first | rds | exact ⟨rfl, ⟨rfl, rfl, rfl, rfl⟩, .inr ⟨_, rfl⟩⟩

theorem retries_wp {w : Which} {Q : Byte → Flash → Ram → Prop} {E : Reply → Flash → Ram → Prop} {X : Flash → Ram → Prop}
    (hQ : ∀ n, Q n f r) (hE : E ioErr f r) (hX : A .cut → X f r) : wp A (retries w) Q E X f r := by
  unfold retries
  apply wp_bind
  apply wp_onPin Pin.getRetries_wp
  · rintro n p q ⟨_, rfl, rfl⟩
    rw [set_get_F, set_get_R]
    wps
    · exact hE
    · exact hQ _
  · rintro p q ⟨h, rfl, rfl⟩
    rw [set_get_F, set_get_R]
    exact hX h

theorem pwStatus_wp {Q : Bytes → Flash → Ram → Prop} {E : Reply → Flash → Ram → Prop} {X : Flash → Ram → Prop}
    (hQ : ∀ n, Q n f r) (hE : E ioErr f r) (hX : A .cut → X f r) : wp A pwStatus Q E X f r := by
  unfold pwStatus getAttr
  wps
  · refine retries_wp (fun n => ?_) hE hX
    wps
    refine retries_wp (fun n => ?_) hE hX
    wps
    refine retries_wp (fun n => ?_) hE hX
    wps
    exact hQ _
  · exact hE
  · exact hE
  · exact hX ‹_›

theorem fillAttr_wp {m : Meta} {Q : Bytes → Flash → Ram → Prop} {E : Reply → Flash → Ram → Prop} {X : Flash → Ram → Prop}
    (hQ : ∀ n, Q n f r) (hE : ∀ e, Bad (.done e) → E e f r) : wp A (fillAttr m) Q E X f r := by
  unfold fillAttr
  wps
  all_goals first | exact hQ _ | exact hE _ bad_io | exact hE _ bad_ub

theorem discretionary_wp {ms md ma : Meta} {Q : Bytes → Flash → Ram → Prop} {E : Reply → Flash → Ram → Prop}
    {X : Flash → Ram → Prop}
    (hQ : ∀ n, Q n f r) (hE : ∀ e, Bad (.done e) → E e f r) (hX : A .cut → X f r) :
    wp A (discretionary ms md ma) Q E X f r := by
  unfold discretionary getAttr
  apply wp_bind; refine fillAttr_wp (fun _ => ?_) hE
  apply wp_bind; refine fillAttr_wp (fun _ => ?_) hE
  apply wp_bind; refine fillAttr_wp (fun _ => ?_) hE
  apply wp_bind; refine pwStatus_wp (fun _ => ?_) (hE _ bad_io) hX
  wps
  all_goals first | exact hQ _ | exact hE _ bad_io | exact hX ‹_›

theorem readCert_wp (k : K) : Reads A (readCert k) f r := by
  unfold readCert
  wps
  all_goals rds

theorem getData_wp : Reads A (getData i) f r := by
  unfold getData readMeta getAttr appData readCert
  wps
  all_goals try rds
  · refine discretionary_wp (fun _ => ?_) (fun e he => ⟨rfl, .rfl', .inl he⟩) (fun h => ⟨rfl, h⟩)
    wps
    rds
  · refine pwStatus_wp (fun _ => ?_) ?_ (fun h => ⟨rfl, h⟩)
    · wps
      rds
    · rds

theorem getNext_wp (c : Apdu.Capdu) : Reads A (getNext c) f r := by
  unfold getNext
  wps
  all_goals try rds
  all_goals try exact ⟨rfl, ⟨rfl, rfl, rfl, rfl⟩, .inl (bad_sw (by decide))⟩
  all_goals refine wp_mono (readCert_wp _) ?_ ?_ ?_
  all_goals first
    | exact fun _ _ _ h => ⟨h.1, ⟨h.2.1.1, h.2.1.2, h.2.1.3, h.2.1.4⟩, h.2.2⟩
    | exact fun _ _ h => h

theorem selectData_wp (c : Apdu.Capdu) : Reads A (selectData c) f r := by
  unfold selectData
  wps
  all_goals first
    | exact ⟨rfl, ⟨rfl, rfl, rfl, rfl⟩, .inl (bad_sw (by decide))⟩
    | exact ⟨rfl, ⟨rfl, rfl, rfl, rfl⟩, .inr ⟨_, rfl⟩⟩

theorem getChallenge_wp : Reads A (getChallenge i) f r := by
  unfold getChallenge
  wps
  all_goals rds

/-! ### VERIFY -/

/-- What `openpgp_verify` answers. -/
def verReply (junk : Byte) (rc : Pin.Rc) (ctr : Option UInt8) : Reply :=
  match rc with
  | .ioFail => ioErr
  | .lengthInvalid => .sw 0x6700
  | .authFail => if ctr.getD junk = 0 then .sw 0x6983 else .sw 0x6982
  | .ok => .sw 0x9000

/-- The mode bit is cleared. -/
def modeOff (p2 : Byte) (r : Ram) : Ram :=
  { r with m81 := if p2 = 0x81 then false else r.m81, m82 := if p2 = 0x82 then false else r.m82 }

/-- The mode bit is set. -/
def modeOn (p2 : Byte) (r : Ram) : Ram :=
  { r with m81 := if p2 = 0x81 then true else r.m81, m82 := if p2 = 0x82 then true else r.m82 }

/-- The PIN a reference stands for. -/
def pinOf (p2 : Byte) : Which := if p2 = 0x83 then .pw3 else .pw1

/-- The outcomes of VERIFY. -/
inductive VerifyEff (A : Fault → Prop) (x : Ext) (i : In) (f : Flash) (r : Ram) : Outcome Reply → Flash → Ram → Prop
  | param : VerifyEff A x i f r (.done (.sw 0x6A86)) f r
  | cut (h : A .cut) (r' : Ram) : VerifyEff A x i f r .cut f r'
  | logout (hp2 : i.c.p2 ∈ [0x81, 0x82, 0x83]) (hp1 : i.c.p1 = 0xFF) :
      VerifyEff A x i f r (.done (.sw 0x9000)) f ((partR (pinOf i.c.p2)).set ⟨false⟩ (modeOff i.c.p2 r))
  | query (hp2 : i.c.p2 ∈ [0x81, 0x82, 0x83]) (hp1 : i.c.p1 = 0) (hl : i.c.data = []) (sw : Nat)
      (hsw : sw = 0x9000 ∨ sw = 0x6900 ∨ ∃ n ≤ 255, sw = 0x63C0 + n) :
      VerifyEff A x i f r (.done (.sw sw)) f (modeOff i.c.p2 r)
  | chk (hp2 : i.c.p2 ∈ [0x81, 0x82, 0x83]) (hp1 : i.c.p1 = 0) (hl : i.c.data ≠ []) (rc : Pin.Rc) (ctr : Option UInt8)
      (p : Pin.Flash) (q : Pin.Ram)
      (h : Pin.VerEff A (pinCfg x (pinOf i.c.p2)) i.c.data (UInt8.ofNat i.c.lc) ((partF (pinOf i.c.p2)).get f) (rc, ctr) p q)
      (r' : Ram) (hr : r' = (partR (pinOf i.c.p2)).set q (if rc = .ok then modeOn i.c.p2 r else modeOff i.c.p2 r)) :
      VerifyEff A x i f r (.done (verReply i.junk rc ctr)) ((partF (pinOf i.c.p2)).set p f) r'

theorem verifyWhich_eq {p2 : Byte} {w : Which} {off : Ram → Ram} (h : verifyWhich p2 = some (w, off)) :
    p2 ∈ [0x81, 0x82, 0x83] ∧ w = pinOf p2 ∧ ∀ r, off r = modeOff p2 r := by
  unfold verifyWhich at h
  repeat' split at h
  · next h1 => simp at h h1; subst h1; obtain ⟨rfl, rfl⟩ := h; exact ⟨by decide, rfl, fun _ => rfl⟩
  · next h1 => simp at h h1; subst h1; obtain ⟨rfl, rfl⟩ := h; exact ⟨by decide, rfl, fun _ => rfl⟩
  · next h1 => simp at h h1; subst h1; obtain ⟨rfl, rfl⟩ := h; exact ⟨by decide, rfl, fun _ => rfl⟩
  · cases h

theorem verify_wp (hx : x.Ok) : wp A (verify x i) (fun a => VerifyEff A x i f r (.done a))
    (fun a => VerifyEff A x i f r (.done a)) (VerifyEff A x i f r .cut) f r := by
  unfold verify
  apply wp_ite <;> intro hp1
  · exact wp_throw .param
  cases hw : verifyWhich i.c.p2 with
  | none => exact wp_throw .param
  | some p =>
    obtain ⟨w, off⟩ := p
    obtain ⟨hp2, rfl, ho⟩ := verifyWhich_eq hw
    simp only []
    apply wp_bind; apply wp_mod
    rw [ho]
    apply wp_ite <;> intro hff
    · exact wp_bind (wp_mod (wp_pure (.logout hp2 (by simpa using hff))))
    have hp1 : i.c.p1 = 0 := by
      simp at hp1 hff
      exact Decidable.byContradiction fun h => hff (hp1 h)
    apply wp_ite <;> intro hl
    · have hl : i.c.data = [] := by simpa [Apdu.Capdu.lc] using hl
      apply wp_bind; apply wp_get
      apply wp_ite <;> intro hv
      · exact wp_pure (.query hp2 hp1 hl _ (.inl rfl))
      · apply wp_bind
        apply wp_onPin Pin.getRetries_wp
        · rintro n p q ⟨h, rfl, rfl⟩
          rw [set_get_F, set_get_R]
          cases h with
          | empty => exact wp_throw (.query hp2 hp1 hl _ (.inr (.inr ⟨0, by omega, rfl⟩)))
          | io => exact wp_throw (.query hp2 hp1 hl _ (.inr (.inl rfl)))
          | some p c => exact wp_throw (.query hp2 hp1 hl _ (.inr (.inr ⟨_, by have := c.toNat_lt; omega, rfl⟩)))
        · rintro p q ⟨h, rfl, rfl⟩
          rw [set_get_F]
          exact .cut h _
    have hl : i.c.data ≠ [] := by simpa [Apdu.Capdu.lc] using hl
    apply wp_bind
    apply wp_onPin (Pin.verify_wp (A := A) (cfg_ok hx _) (by
      rw [UInt8.toNat_ofNat']; exact Nat.mod_le _ _))
    · rintro ⟨rc, ctr⟩ p q h
      have hr : ∀ rc', rc' ≠ Pin.Rc.ok → (partR (pinOf i.c.p2)).set q (modeOff i.c.p2 r) =
          (partR (pinOf i.c.p2)).set q (if rc' = .ok then modeOn i.c.p2 r else modeOff i.c.p2 r) :=
        fun rc' hn => by rw [if_neg hn]
      have key := fun r' hr => VerifyEff.chk (r := r) hp2 hp1 hl rc ctr p q h r' hr
      cases rc with
      | ioFail => exact wp_throw (key _ (hr _ (by decide)))
      | lengthInvalid => exact wp_throw (key _ (hr _ (by decide)))
      | authFail =>
        have k2 := key _ (hr _ (by decide))
        simp only [verReply] at k2
        show wp A (if ctr.getD i.junk == 0 then throw _ else _) _ _ _ _ _
        by_cases hc : ctr.getD i.junk = 0
        · rw [if_pos (by simpa using hc)]
          rw [if_pos hc] at k2
          exact wp_throw k2
        · rw [if_neg (by simpa using hc)]
          rw [if_neg hc] at k2
          exact wp_throw k2
      | ok =>
        have hz : ctr.getD i.junk ≠ 0 := by
          cases h with
          | right p c d hp hc hz => exact hz
        show wp A (if ctr.getD i.junk == 0 then throw _ else _) _ _ _ _ _
        rw [if_neg (by simpa using hz)]
        simp only [List.mem_cons, List.not_mem_nil, or_false] at hp2
        have k2 := fun r' hr => key r' hr
        rw [if_pos rfl] at k2
        rcases hp2 with h2 | h2 | h2 <;> simp only [h2] at k2 ⊢ <;> wps <;>
          first
            | (exact k2 _ (by unfold modeOn modeOff pinOf partR; rfl))
            | (next h => exact absurd h (by decide))
            | (next h => exact absurd rfl h)
            | (next h _ => exact absurd h (by decide))
            | (next h _ => exact absurd rfl h)
    · rintro p q ⟨h, rfl⟩
      rw [set_get_F]
      exact .cut h _

end Verif.Pgp
