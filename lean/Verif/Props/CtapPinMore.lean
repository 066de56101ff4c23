import Verif.Props.CtapPin
import Verif.Spec.CtapToy
/-
C52: the total number of wrong PINs; what the counters can be; concrete histories for C51 and C52.
-/
namespace Verif.Ctap
open Cmd

variable {x : Ext}

theorem charged_pinHash {f g : Flash} (h : Charged f g) : g.pinHash = f.pinHash := pinHash_of_pin h.pin

theorem charged_lb {f g : Flash} (h : Charged f g) : g.lb = f.lb := by
  obtain ⟨c, k, _, _, _, rfl⟩ := h
  rfl

theorem updCert_lb {g : Cert → Cert} {f f' : Flash} (h : updCert g f = some f') : f'.lb = f.lb := by
  unfold updCert at h
  cases hd : f.cert with
  | none => rw [hd] at h; cases h
  | some c => rw [hd] at h; cases h; rfl

/-- An operation that does not present the PIN leaves the PIN alone, unless it is a reset. -/
theorem wrong_keeps (hx : x.Sized) {s : St} {op : Op} {env : Env} {h : Bytes} (hp : s.flash.pinHash = some h)
    (hl : s.flash.lb.isSome = true) (hr : ¬ Right x s op) (ho : op.resets = false) (hb : op.powers = true → noFail env) :
    (step x s op env).1.flash.pinHash = some h ∧ (step x s op env).1.flash.lb.isSome = true := by
  by_cases hc : ∃ i q, op = .cbor i q
  · obtain ⟨i, q, rfl⟩ := hc
    obtain ⟨o, r', he, _⟩ := step_cbor (A := fun _ => True) x i hx s q (env := env) (fun _ => trivial)
    revert he
    generalize (step x s (.cbor i q) env).1.flash = f'
    intro he
    cases he with
    | quiet h' => exact ⟨(pinHash_of_pin h'.pin).trans hp, h'.lb hl⟩
    | token hq hm => exact absurd (Match.right (s := s) hm (Or.inr hq)) hr
    | changed n hq hm => exact absurd (Match.right (s := s) hm (Or.inl hq)) hr
    | failed hq hf _ =>
      cases hf with
      | early => exact ⟨hp, hl⟩
      | unread _ _ hch => exact ⟨(charged_pinHash hch).trans hp, by rw [charged_lb hch]; exact hl⟩
      | wrong _ _ _ _ hw => exact ⟨(charged_pinHash hw.charged).trans hp, by rw [charged_lb hw.charged]; exact hl⟩
      | right _ _ _ _ hm => exact absurd (Match.right (s := s) hm hq) hr
    | cut hq hf =>
      cases hf with
      | early => exact ⟨hp, hl⟩
      | charged _ hch => exact ⟨(charged_pinHash hch).trans hp, by rw [charged_lb hch]; exact hl⟩
      | right _ _ _ hm => exact absurd (Match.right (s := s) hm hq) hr
    | set _ hp' =>
      have h1 := (pinHash_some hp).1
      rw [hp'] at h1
      cases h1
      exact absurd rfl (pinHash_some hp).2
    | reset h => cases ho
  · have hoth := step_other x s op env (fun i q h => hc ⟨i, q, h⟩)
    cases hpw : op.powers with
    | true =>
      cases op <;> try cases hpw
      rw [(step_boot hl (hb rfl)).1]
      exact ⟨hp, hl⟩
    | false =>
      revert hoth
      generalize step x s op env = p
      intro hoth
      cases hoth with
      | boot => cases hpw
      | reset => cases ho
      | u2f h => exact ⟨(pinHash_of_pin h.pin).trans hp, h.lb hl⟩
      | u2fCut h => exact ⟨(pinHash_of_pin h.pin).trans hp, h.lb hl⟩
      | admin _ _ _ h _ => exact ⟨(pinHash_of_pin (h 0 s.ram).pin).trans hp, (h 0 s.ram).lb hl⟩

/-- How many operations of a history lower the retry counter. -/
def charges (x : Ext) : St → List (Op × Env) → Nat
  | _, [] => 0
  | s, (op, env) :: rest =>
    (if (step x s op env).1.flash.tries < s.flash.tries then 1 else 0) + charges x (step x s op env).1 rest

/-- Wrong PINs in total: as long as the PIN that is set is not presented and the applet is not reset,
over any number of power cycles and power cuts, the PIN stays set and each charged attempt is one try
less.  (By `C51_no_free_guess` an attempt that is not charged tells nothing.) -/
theorem C52_total (hx : x.Sized) (s : St) (hs : s.flash.pinHash ≠ none) (hl : s.flash.lb.isSome = true)
    (ops : List (Op × Env)) (hops : ∀ o ∈ ops, o.1.resets = false ∧ (o.1.powers = true → noFail o.2))
    (hr : NeverRight x s ops) :
    (run x s ops).1.flash.pinHash = s.flash.pinHash ∧
      (run x s ops).1.flash.tries + charges x s ops = s.flash.tries := by
  induction ops generalizing s with
  | nil => exact ⟨rfl, rfl⟩
  | cons o ops ih =>
    obtain ⟨op, env⟩ := o
    have ho := hops (op, env) (List.mem_cons_self ..)
    cases hh : s.flash.pinHash with
    | none => exact absurd hh hs
    | some h =>
      obtain ⟨k1, k2⟩ := wrong_keeps (env := env) hx hh hl hr.1 ho.1 ho.2
      have hi := ih (step x s op env).1 (by rw [k1]; simp) k2 (fun o ho => hops o (List.mem_cons_of_mem _ ho)) hr.2
      unfold run charges
      refine ⟨hi.1.trans k1, ?_⟩
      show (run x (step x s op env).1 ops).1.flash.tries + _ = _
      rcases wrong_tries (env := env) hx hh hr.1 with h' | h'
      · rw [if_neg (by omega)]
        omega
      · rw [if_pos (by omega)]
        omega

/-! ### What the counters can be -/

/-- At most eight tries are left, and a stored PIN hash is complete. -/
def PinInv (f : Flash) : Prop := f.tries ≤ 8 ∧ ∀ h, rdCert (·.pin) f = some h → h = [] ∨ 16 ≤ h.length

theorem PinInv.same {f f' : Flash} (h : PinInv f) (h1 : rdCert (·.pin) f' = rdCert (·.pin) f)
    (h2 : rdCert (·.pinCtr) f' = rdCert (·.pinCtr) f) : PinInv f' :=
  ⟨by rw [tries_of_pinCtr h2]; exact h.1, by rw [h1]; exact h.2⟩

theorem PinInv.charged {f f' : Flash} (h : PinInv f) (h1 : Charged f f') : PinInv f' :=
  ⟨by have := h1.tries; have := h.1; omega, by rw [h1.pin]; exact h.2⟩

theorem PinInv.upd {f f' : Flash} {g : Cert → Cert} (h : PinInv f) (h1 : updCert g f = some f')
    (hp : ∀ c, (g c).pin = c.pin ∨ ∃ n, (g c).pin = some n ∧ 16 ≤ n.length)
    (hc : ∀ c, (g c).pinCtr = c.pinCtr ∨ (g c).pinCtr = some 8) : PinInv f' := by
  unfold updCert at h1
  cases hd : f.cert with
  | none => rw [hd] at h1; cases h1
  | some c =>
    rw [hd] at h1
    cases h1
    constructor
    · have h0 := h.1
      unfold Flash.tries at h0 ⊢
      rw [hd] at h0
      simp only at h0 ⊢
      rcases hc c with h' | h'
      · rw [h']; exact h0
      · rw [h']; decide
    · intro p h'
      have h0 := h.2 p
      unfold rdCert at h0 h'
      rw [hd] at h0
      simp only [Option.bind_some] at h0 h'
      rcases hp c with h1 | ⟨n, h1, h2⟩
      · rw [h1] at h'; exact h0 h'
      · rw [h1] at h'; cases h'; exact Or.inr h2

theorem PinInv.installed {f f' : Flash} {i : In} (h : PinInv f) (h1 : Installed i f f') : PinInv f' := by
  refine ⟨by rw [tries_of_pinCtr h1.pinCtr]; exact h.1, ?_⟩
  intro p hp
  cases h1.pin with
  | inl h' => rw [h'] at hp; exact h.2 p hp
  | inr h' => rw [h'] at hp; cases hp; exact Or.inl rfl

theorem pinInv_step (hx : x.Sized) (s : St) (op : Op) (env : Env) (h : PinInv s.flash) :
    PinInv (step x s op env).1.flash := by
  by_cases hc : ∃ i q, op = .cbor i q
  · obtain ⟨i, q, rfl⟩ := hc
    obtain ⟨o, r', he, _⟩ := step_cbor (A := fun _ => True) x i hx s q (env := env) (fun _ => trivial)
    revert he
    generalize (step x s (.cbor i q) env).1.flash = f'
    intro he
    cases he with
    | quiet h' => exact h.same h'.pin h'.pinCtr
    | token _ _ hu => exact h.upd hu (fun _ => Or.inl rfl) (fun _ => Or.inr rfl)
    | changed n _ _ hn hu => exact h.upd hu (fun _ => Or.inr ⟨n, rfl, hn⟩) (fun _ => Or.inr rfl)
    | failed hq hf _ =>
      cases hf with
      | early => exact h
      | unread _ _ hch => exact h.charged hch
      | wrong _ _ _ _ hw => exact h.charged hw.charged
      | right _ g _ hch _ hg =>
        rcases hg with rfl | ⟨n, hn, hu⟩
        · exact h.charged hch
        · exact (h.charged hch).upd hu (fun _ => Or.inr ⟨n, rfl, hn⟩) (fun _ => Or.inl rfl)
    | cut hq hf =>
      cases hf with
      | early => exact h
      | charged _ hch => exact h.charged hch
      | right g _ hch _ _ hg =>
        obtain ⟨n, hn, hu⟩ := hg
        exact (h.charged hch).upd hu (fun _ => Or.inr ⟨n, rfl, hn⟩) (fun _ => Or.inl rfl)
    | set _ _ _ hu =>
      obtain ⟨n, hn, hu⟩ := hu
      rcases hu with hu | hu
      · exact h.upd hu (fun _ => Or.inr ⟨n, rfl, hn⟩) (fun _ => Or.inl rfl)
      · exact h.upd hu (fun _ => Or.inr ⟨n, rfl, hn⟩) (fun _ => Or.inr rfl)
    | reset h' => exact h.installed h'
  · have hoth := step_other x s op env (fun i q h => hc ⟨i, q, h⟩)
    revert hoth
    generalize step x s op env = p
    intro hoth
    cases hoth with
    | boot h' _ => exact h.installed h'
    | reset h' _ => exact h.installed h'
    | u2f h' => exact h.same h'.pin h'.pinCtr
    | u2fCut h' => exact h.same h'.pin h'.pinCtr
    | admin _ _ _ h' _ => exact h.same (h' 0 s.ram).pin (h' 0 s.ram).pinCtr

/-- Whatever happens to an erased device, the retry counter never exceeds eight and a PIN that is set has
a complete hash (what `C52_three_per_session` and `C52_total` start from). -/
theorem C52_reachable (hx : x.Sized) (ops : List (Op × Env)) :
    (run x St.blank ops).1.flash.tries ≤ 8 ∧
      ∀ h, (run x St.blank ops).1.flash.pinHash = some h → 16 ≤ h.length := by
  have : ∀ s, PinInv s.flash → PinInv (run x s ops).1.flash := by
    induction ops with
    | nil => exact fun s h => h
    | cons o ops ih => exact fun s h => ih _ (pinInv_step hx s o.1 o.2 h)
  have h := this St.blank ⟨by decide, fun h h' => by cases h'⟩
  refine ⟨h.1, fun p hp => ?_⟩
  obtain ⟨h1, h2⟩ := pinHash_some hp
  exact (h.2 p h1).resolve_left h2

/-! ### Concrete histories -/

section
open Toy

/-- A PIN is set with eight tries; three wrong ones in a session; the right one is then refused; after a
power cycle it is accepted and the counter is back at eight. -/
example : withPin1.flash.pinHash = some (pinHash pin1) ∧ withPin1.flash.tries = 8 ∧ withPin1.flash.lb.isSome = true ∧
    (run ext withPin1 (hist [(21000, getToken pin2 4 none), (21000, changePin pin2 pin3), (21000, getOldToken pin2),
      (21000, getToken pin1 4 none)])).2 = [.err 0x31, .err 0x31, .err 0x34, .err 0x34] ∧
    (run ext withPin1 (hist [(21000, getToken pin2 4 none), (21000, changePin pin2 pin3), (21000, getOldToken pin2),
      (21000, getToken pin1 4 none)])).1.flash.tries = 5 ∧
    (run ext withPin1 (hist [(21000, getToken pin2 4 none), (21000, changePin pin2 pin3), (21000, getOldToken pin2)]
      ++ [(.powerOn (env 0), fine)] ++ hist [(21000, getToken pin1 4 none)])).1.flash.tries = 8 := by decide +kernel

/-- The hypotheses of `C51_charged_at_most_once` and `C51_no_free_guess` hold for a wrong guess that is cut
off before the charge; cut off one write later, it is charged. -/
example : ¬ Right ext withPin1 (.cbor (env 21000) (getToken pin2 4 none)) := by decide +kernel
example : (step ext withPin1 (.cbor (env 21000) (getToken pin2 4 none)) (cutAt 2)).1.flash.tries = 8 ∧
    (step ext withPin1 (.cbor (env 21000) (getToken pin2 4 none)) (cutAt 3)).1.flash.tries = 7 := by decide +kernel

/-- Five more wrong PINs over two power cycles: blocked, and the hypotheses of `C52_blocked_until_reset`
hold. -/
def wrongs : List (Op × Env) :=
  let w : List (Op × Env) := hist [(21000, getToken pin2 4 none), (21000, getToken pin2 4 none), (21000, getToken pin3 4 none)]
  w ++ [(.powerOn (env 0), fine)] ++ w ++ [(.powerOn (env 0), fine)] ++ w.take 2
example : (run ext withPin1 wrongs).1.flash.tries = 0 ∧ (run ext withPin1 wrongs).1.flash.pinHash = some (pinHash pin1) ∧
    (run ext withPin1 wrongs).1.flash.lb.isSome = true ∧ charges ext withPin1 wrongs = 8 ∧ NeverRight ext withPin1 wrongs ∧
    (run ext (run ext withPin1 wrongs).1 [(.powerOn (env 0), fine), (.cbor (env 1) (getToken pin1 4 none), fine)]).2 =
      [.done, .err 0x32] := by decide +kernel

end
end Verif.Ctap
