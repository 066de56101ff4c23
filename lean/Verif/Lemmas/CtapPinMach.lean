import Verif.Lemmas.CtapStep
import Verif.Lemmas.CtapUse
import Verif.Spec.CtapPinMach
/-
The clientPIN command does what the small machine does.
-/
namespace Verif.Spec.FidoPin
open Verif.Ctap Cmd

/-! ### Padded PINs -/

theorem unpad_concat (t : Bytes) (b : Byte) : unpad (t ++ [b]) = if b = 0 then unpad t else t ++ [b] := by
  unfold unpad
  rw [List.reverse_append]
  show ((b :: t.reverse).dropWhile _).reverse = _
  rw [List.dropWhile_cons]
  by_cases h : b = 0
  · simp [h]
  · simp [h]

theorem lastNonZero_append (t : Bytes) (l : Bytes) (k : Nat) (h : k < t.length) :
    lastNonZero (t ++ l) k = lastNonZero t k := by
  induction k with
  | zero => rfl
  | succ k ih =>
    unfold lastNonZero
    rw [ih (by omega)]
    have : (t ++ l).getD (k + 1) 0 = t.getD (k + 1) 0 := by
      simp [List.getD_eq_getElem?_getD, List.getElem?_append_left h]
    rw [this]

theorem lastNonZero_unpad (k : Nat) : ∀ t : Bytes, t.length = k + 1 → lastNonZero t k = (unpad t).length - 1 := by
  induction k with
  | zero =>
    intro t h
    match t, h with
    | [b], _ =>
      have := unpad_concat [] b
      rw [List.nil_append] at this
      rw [this]
      split <;> rfl
  | succ k ih =>
    intro t h
    rcases List.eq_nil_or_concat t with rfl | ⟨t', b, rfl⟩
    · simp at h
    · rw [List.concat_eq_append] at h ⊢
      have hl : t'.length = k + 1 := by simpa using h
      rw [unpad_concat]
      unfold lastNonZero
      have hg : (t' ++ [b]).getD (k + 1) 0 = b := by
        rw [List.getD_eq_getElem?_getD, ← hl]
        simp
      rw [hg]
      by_cases hb : b = 0
      · rw [if_pos (by simp [hb]), if_pos hb, lastNonZero_append _ _ _ (by omega), ih t' hl]
      · rw [if_neg (by simp [hb]), if_neg hb]
        simp [hl]

theorem unpad_take (t : Bytes) : t.take (unpad t).length = unpad t := by
  have h : unpad t <+: t := by
    have := List.reverse_prefix.mpr (List.dropWhile_suffix (l := t.reverse) (fun b => decide (b = 0)))
    rw [List.reverse_reverse] at this
    exact this
  exact (List.prefix_iff_eq_take.mp h).symm

/-- What the loop over the padded PIN finds. -/
theorem scan {t : Bytes} (h : t.length = 64) :
    (pinOf t = none ∧ (decide (lastNonZero t 63 < 3) || decide (lastNonZero t 63 ≥ 63)) = true) ∨
    (pinOf t = some (t.take (lastNonZero t 63 + 1)) ∧
      (decide (lastNonZero t 63 < 3) || decide (lastNonZero t 63 ≥ 63)) = false) := by
  have h1 := lastNonZero_unpad 63 t h
  have h2 := unpad_take t
  unfold pinOf
  by_cases hc : 4 ≤ (unpad t).length ∧ (unpad t).length ≤ 63
  · right
    rw [if_pos hc]
    constructor
    · rw [h1, Nat.sub_add_cancel (by omega), h2]
    · simp only [Bool.or_eq_false_iff, decide_eq_false_iff_not]
      omega
  · left
    rw [if_neg hc]
    refine ⟨rfl, ?_⟩
    simp only [Bool.or_eq_true, decide_eq_true_eq]
    omega

/-! ### Flash -/

/-- Flash holds what the machine keeps there. -/
structure Holds (m : Mach) (f : Flash) : Prop where
  ready : f.lb.isSome = true
  pin : rdCert (·.pin) f = some (m.pin.getD [])
  size : ∀ p, m.pin = some p → p.length = 16
  tries : rdCert (·.pinCtr) f = m.tries

theorem Holds.shows {m : Mach} {f : Flash} {r : Ram} (h : Holds m f) (h1 : r.consec = m.left) (h2 : r.ka = m.ka) :
    Shows m ⟨f, r⟩ := ⟨h.ready, h.pin, h.size, h.tries, h1, h2⟩

theorem shows_holds {m : Mach} {s : St} (h : Shows m s) : Holds m s.flash := ⟨h.ready, h.pin, h.size, h.tries⟩

theorem Holds.off {m : Mach} {f : Flash} (h : Holds m f) : Shows m.off ⟨f, Ram.init⟩ :=
  ⟨h.ready, h.pin, h.size, h.tries, rfl, rfl⟩

theorem Holds.cert {m : Mach} {f : Flash} (h : Holds m f) : ∃ c, f.cert = some c := by
  have := h.pin
  unfold rdCert at this
  cases hc : f.cert with
  | none => rw [hc] at this; cases this
  | some c => exact ⟨c, rfl⟩

theorem Holds.upd {m : Mach} {f : Flash} (h : Holds m f) (g : Cert → Cert) : updCert g f ≠ none := by
  obtain ⟨c, hc⟩ := h.cert
  unfold updCert
  rw [hc]
  exact fun h => by cases h

theorem Holds.setTries {m : Mach} {f f' : Flash} {k : Byte} (h : Holds m f)
    (hu : updCert (fun c => { c with pinCtr := some k }) f = some f') : Holds { m with tries := some k } f' := by
  obtain ⟨c, hc⟩ := h.cert
  have hp := h.pin
  unfold updCert at hu
  rw [hc] at hu
  cases hu
  unfold rdCert at hp
  rw [hc] at hp
  exact ⟨h.ready, hp, h.size, rfl⟩

theorem Holds.setPin {m : Mach} {f f' : Flash} {p : Bytes} (h : Holds m f) (hl : p.length = 16)
    (hu : updCert (fun c => { c with pin := some p }) f = some f') : Holds { m with pin := some p } f' := by
  obtain ⟨c, hc⟩ := h.cert
  have ht := h.tries
  unfold updCert at hu
  rw [hc] at hu
  cases hu
  unfold rdCert at ht
  rw [hc] at ht
  exact ⟨h.ready, rfl, fun q hq => by cases hq; exact hl, ht⟩

theorem Holds.hasPin {m : Mach} {f : Flash} (h : Holds m f) :
    ((rdCert (·.pin) f).map fun q => !q.isEmpty).getD true = m.pin.isSome := by
  rw [h.pin]
  cases hm : m.pin with
  | none => rfl
  | some p =>
    have := h.size p hm
    cases p with
    | nil => simp at this
    | cons a l => rfl

/-- A command ends as the machine says; `T` are the machines that a power cut may leave. -/
def Ends (c : M Resp) (d : Out × Mach) (T : Mach → Prop) (f : Flash) (r : Ram) : Prop :=
  wp cutsOnly c (fun a f' r' => d.1 = .resp a ∧ Shows d.2 ⟨f', r'⟩)
    (fun e f' r' => ∃ c, e = .code c ∧ d.1 = .err c ∧ Shows d.2 ⟨f', r'⟩) (fun f' _ => ∃ m', T m' ∧ Holds m' f') f r

section
variable {x : Ext} {i : In} {q : CpReq} {m : Mach} {f : Flash} {r : Ram}

theorem wp_hasPin' {Q : Bool → Flash → Ram → Prop} {E : Err → Flash → Ram → Prop} {X : Flash → Ram → Prop}
    (h : Holds m f) (hQ : Q m.pin.isSome f r) (hx : X f r) : wp cutsOnly hasPin Q E X f r := by
  apply wp_hasPin
  · intro b hb _
    rcases hb with hb | hb
    · exact absurd rfl hb
    · rw [hb, h.hasPin]
      exact hQ
  · intro _
    exact hx

/-- The gate. -/
theorem wp_gate {Q : Byte → Flash → Ram → Prop} {E : Err → Flash → Ram → Prop} {X : Flash → Ram → Prop}
    (h : Shows m ⟨f, r⟩)
    (hQ : ∀ k p, m.gate = none → m.pin = some p → m.tries = some k → k ≠ 0 → m.left ≠ 0 → Q (k - 1) f r)
    (hE : ∀ c, m.gate = some c → E (.code c) f r) (hx : X f r) : wp cutsOnly pinGate Q E X f r := by
  have e := Mach.gate.eq_def m
  unfold pinGate pinRetries
  apply wp_bind
  apply wp_hasPin' (shows_holds h)
  · apply wp_bind; apply wp_failIf
    · intro hn
      apply hE
      rw [e, if_pos (by simpa using hn)]
    intro hp
    have hp' : ∃ p, m.pin = some p := by
      cases hm : m.pin with
      | none => rw [hm] at hp; cases hp
      | some p => exact ⟨p, rfl⟩
    obtain ⟨p, hp'⟩ := hp'
    rw [if_neg (by rw [hp']; simp)] at e
    have ht : rdCert (·.pinCtr) f = m.tries := h.tries
    apply wp_bind
    apply wp_rdOr
    · intro k hk
      rw [ht] at hk
      rw [if_neg (by rw [hk]; simp)] at e
      apply wp_bind; apply wp_failIf
      · intro h0
        apply hE
        rw [e, hk, eq_of_beq h0, if_pos rfl]
      intro h0
      have h0' : k ≠ 0 := by simpa using h0
      rw [if_neg (by rw [hk]; simpa using h0')] at e
      apply wp_bind; apply wp_get
      have hl : r.consec = m.left := h.left
      apply wp_bind; apply wp_failIf
      · intro hc
        apply hE
        rw [e, ← hl, if_pos (eq_of_beq hc)]
      intro hc
      have hc' : m.left ≠ 0 := by rw [← hl]; simpa using hc
      rw [if_neg hc'] at e
      exact wp_pure (hQ k p e hp' hk h0' hc')
    · intro hn
      rw [ht] at hn
      apply hE
      rw [e, if_pos hn]
    · intro hf
      exact absurd rfl hf
    · intro _; exact hx
  · exact hx

/-- The comparison. -/
theorem wp_compare {z p : Bytes} {k : Byte} {regen : Bool}
    {Q : Unit → Flash → Ram → Prop} {E : Err → Flash → Ram → Prop} {X : Flash → Ram → Prop}
    (h : Shows m ⟨f, r⟩) (hp : m.pin = some p) (hk : m.tries = some k)
    (hw : (if q.proto = 1 then 16 else 32) ≤ q.pinHashEnc.length)
    (hQ : ∀ f', shownPin x z q = m.pin → Holds m.charge f' → Q () f' { r with consec := 3 })
    (hE : ∀ f' r', shownPin x z q ≠ m.pin → Shows (m.wrong regen).2 ⟨f', r'⟩ → E (.code (m.wrong regen).1) f' r')
    (hX0 : X f r) (hX1 : ∀ f', Holds m.charge f' → X f' r) :
    wp cutsOnly (pinCompare x q z (k - 1) regen) Q E X f r := by
  have hH := shows_holds h
  unfold pinCompare setPinRetries
  apply wp_bind
  apply wp_wrOr
  · intro g hg
    have hc : Holds m.charge g := by
      have := hH.setTries hg
      have e : m.charge = { m with tries := some (k - 1) } := by
        unfold Mach.charge
        rw [hk]
        rfl
      rw [e]
      exact this
    have hct : m.charge.tries = some (k - 1) := by
      unfold Mach.charge
      rw [hk]
      rfl
    apply wp_bind
    unfold decryptOr
    have hf : hashField q = q.pinHashEnc.take (hashSize q.proto) := by
      unfold hashField hashSize
      by_cases h1 : q.proto = 1 <;> simp [h1]
    have hs := shownPin.eq_def x z q
    rw [hf] at hs
    cases hd : decrypt x z (q.pinHashEnc.take (hashSize q.proto)) q.proto with
    | none =>
      have := decrypt_none hd
      split at hw <;> omega
    | some cand =>
      rw [hd] at hs
      apply wp_pure
      apply wp_bind
      unfold verifyPinHash
      apply wp_bind
      apply wp_rdOr
      · intro h' hh
        have := hc.pin
        rw [hh] at this
        have hpp : h' = p := by
          have e : m.charge.pin = m.pin := rfl
          rw [e, hp] at this
          exact Option.some.inj this
        subst hpp
        have hl := h.size _ hp
        rw [if_neg (by omega)]
        apply wp_pure
        have ht : h'.take 16 = h' := List.take_of_length_le (by omega)
        rw [ht]
        by_cases hm : h' = cand.take 16
        · rw [if_pos (by simp [hm])]
          apply wp_mod
          refine hQ g ?_ hc
          rw [hs, hp, hm]
          rfl
        · rw [if_neg (by simpa using hm)]
          have hne : shownPin x z q ≠ m.pin := by
            rw [hs, hp]
            intro hh
            exact hm (Option.some.inj hh).symm
          have ew := Mach.wrong.eq_def m regen
          have key : ∀ r1 : Ram, r1.consec = r.consec → r1.ka = (if regen then m.ka + 1 else m.ka) →
              wp cutsOnly (do
                failIf (k - 1 == 0) Code.pinBlocked
                Cmd.mod fun r : Ram => { r with consec := r.consec - 1 }
                let r ← Cmd.get
                fail (if r.consec == 0 then Code.pinAuthBlocked else Code.pinInvalid) : M Unit) Q E X g r1 := by
            intro r1 h1 h2
            have hl' : r.consec = m.left := h.left
            apply wp_bind
            apply wp_failIf
            · intro hb
              rw [if_pos (by show m.charge.tries = _; rw [hct, eq_of_beq hb])] at ew
              have := hE g r1 hne
              rw [ew] at this
              exact this ⟨hc.ready, hc.pin, hc.size, hc.tries, by rw [h1, hl']; rfl, h2⟩
            · intro hb
              have hb' : k - 1 ≠ 0 := by simpa using hb
              rw [if_neg (by show ¬ m.charge.tries = _; rw [hct]; simpa using hb')] at ew
              apply wp_bind
              apply wp_mod
              apply wp_bind
              apply wp_get
              apply wp_fail
              have := hE g { r1 with consec := r1.consec - 1 } hne
              rw [ew] at this
              have he : (if (r1.consec - 1 == 0) = true then Code.pinAuthBlocked else Code.pinInvalid)
                  = (if m.left = 1 then 0x34 else 0x31 : Byte) := by
                rw [h1, hl']
                by_cases h1 : m.left = 1
                · rw [h1]; rfl
                · have : m.left - 1 ≠ 0 := by
                    intro h
                    apply h1
                    have := congrArg (· + 1) h
                    simpa using this
                  rw [if_neg (by simpa using this), if_neg h1]
              show E (.code (if (r1.consec - 1 == 0) = true then Code.pinAuthBlocked else Code.pinInvalid)) g _
              rw [he]
              exact this ⟨hc.ready, hc.pin, hc.size, hc.tries, by rw [← hl', ← h1], h2⟩
          have hka : r.ka = m.ka := h.ka
          cases regen with
          | true =>
            rw [if_pos rfl]
            apply wp_bind
            apply wp_mod
            exact key _ rfl (by show r.ka + 1 = _; rw [hka]; rfl)
          | false =>
            rw [if_neg (by simp)]
            exact key _ rfl hka
      · intro hn
        rw [hc.pin] at hn
        cases hn
      · intro hf
        exact absurd rfl hf
      · intro _
        exact hX1 g hc
  · intro hn
    exact absurd hn (hH.upd _)
  · intro hf
    exact absurd rfl hf
  · intro _
    exact hX0

/-- The new PIN is stored. -/
theorem wp_store {t : Bytes} (hs : x.Sized) (ht : t.length = 64)
    {Q : Unit → Flash → Ram → Prop} {E : Err → Flash → Ram → Prop} {X : Flash → Ram → Prop} (h : Holds m f)
    (hE : pinOf t = none → E (.code 0x37) f r)
    (hQ : ∀ p f', pinOf t = some p → Holds { m with pin := some (digest x p), tries := some 8 } f' → Q () f' r)
    (hX0 : X f r) (hX1 : ∀ p f', pinOf t = some p → Holds { m with pin := some (digest x p) } f' → X f' r) :
    wp cutsOnly (storeNewPin x t) Q E X f r := by
  unfold storeNewPin Ctap.setPin setPinRetries
  rcases scan ht with ⟨h1, h2⟩ | ⟨h1, h2⟩
  · apply wp_bind
    apply wp_failIf
    · intro _
      exact hE h1
    · intro hb
      rw [h2] at hb
      cases hb
  · apply wp_bind
    apply wp_failIf
    · intro hb
      rw [h2] at hb
      cases hb
    intro _
    have hl : (digest x (t.take (lastNonZero t 63 + 1))).length = 16 := by
      unfold digest
      rw [List.length_take, hs]
      rfl
    apply wp_bind
    apply wp_wrOr
    · intro g hg
      have hg1 := h.setPin hl hg
      apply wp_wrOr
      · intro g' hg'
        exact hQ _ _ h1 (hg1.setTries hg')
      · intro hn
        exact absurd hn (hg1.upd _)
      · intro hf
        exact absurd rfl hf
      · intro _
        exact hX1 _ _ h1 hg1
    · intro hn
      exact absurd hn (h.upd _)
    · intro hf
      exact absurd rfl hf
    · intro _
      exact hX0

/-- The decrypted new PIN has 64 bytes. -/
theorem decrypt_new {z : Bytes} (hlen : ∀ k iv c, (x.cbcDec k iv c).length = c.length)
    (hw : (if q.proto = 1 then 64 else 80) ≤ q.newPinEnc.length) :
    ∃ t, decrypt x z (newField q) q.proto = some t ∧ t.length = 64 := by
  unfold decrypt newField
  by_cases h1 : q.proto = 1
  · rw [if_pos h1] at hw ⊢
    rw [if_pos (by simp [h1])]
    refine ⟨_, rfl, ?_⟩
    rw [hlen, List.length_take]
    omega
  · rw [if_neg h1] at hw ⊢
    rw [if_neg (by simp [h1]), if_neg (by rw [List.length_take]; omega)]
    refine ⟨_, rfl, ?_⟩
    rw [hlen, List.length_drop, List.length_take]
    omega

theorem newField_eq : newField q = q.newPinEnc.take (encSize q.proto) := by
  unfold newField encSize
  by_cases h1 : q.proto = 1 <;> simp [h1]

theorem hashField_eq : hashField q = q.pinHashEnc.take (hashSize q.proto) := by
  unfold hashField hashSize
  by_cases h1 : q.proto = 1 <;> simp [h1]

/-! ### Subcommands -/

theorem ends_setPin (hs : x.Sized) (hlen : ∀ k iv c, (x.cbcDec k iv c).length = c.length) (h : Shows m ⟨f, r⟩)
    (hw : (if q.proto = 1 then 64 else 80) ≤ q.newPinEnc.length) :
    Ends (cpSetPin x q) (m.setPin x q)
      (fun m' => m' = m ∨ ((m.setPin x q).1 = .resp .empty ∧ m' = { m with pin := (m.setPin x q).2.pin })) f r := by
  have hH := shows_holds h
  have e := Mach.setPin.eq_def x m q
  have X0 : ∃ m', (m' = m ∨ ((m.setPin x q).1 = .resp .empty ∧ m' = { m with pin := (m.setPin x q).2.pin })) ∧ Holds m' f :=
    ⟨m, Or.inl rfl, hH⟩
  unfold Ends cpSetPin
  apply wp_bind
  apply wp_hasPin' hH
  · apply wp_bind
    apply wp_failIf
    · intro hp
      rw [if_pos (by intro hn; rw [hn] at hp; cases hp)] at e
      exact ⟨_, rfl, by rw [e], by rw [e]; exact h⟩
    intro hp
    have hn : m.pin = none := by
      cases hm : m.pin with
      | none => rfl
      | some p => rw [hm] at hp; cases hp
    rw [if_neg (by intro hh; exact hh hn)] at e
    apply wp_bind
    unfold shared
    apply wp_bind
    apply wp_get
    have hka : r.ka = m.ka := h.ka
    rw [hka]
    cases hz : decapsulate x m.ka q.key q.proto with
    | none =>
      rw [hz] at e
      refine wp_fail ⟨_, rfl, by rw [e], by rw [e]; exact h⟩
    | some z =>
      rw [hz] at e
      apply wp_pure
      apply wp_bind
      rw [← newField_eq]
      apply wp_failIf
      · intro hv
        have hv' : ¬ Authenticates x (z.take 32) (newField q) q.pinAuth q.proto := by
          intro ha
          rw [authenticates_iff.mpr ha] at hv
          cases hv
        have e2 := e.trans (if_pos hv')
        exact ⟨_, rfl, by rw [e2], by rw [e2]; exact h⟩
      intro hv
      have hv' : ¬ ¬ Authenticates x (z.take 32) (newField q) q.pinAuth q.proto := by
        intro ha
        exact ha (authenticates_iff.mp (by simpa using hv))
      have e2 := e.trans (if_neg hv')
      clear e
      obtain ⟨t, ht, hl⟩ := decrypt_new (x := x) (z := z) hlen hw
      have hnp : newPin x z q = pinOf t := by
        unfold newPin
        rw [ht]
        rfl
      rw [hnp] at e2
      apply wp_bind
      unfold decryptOr
      rw [ht]
      apply wp_pure
      apply wp_bind
      apply wp_store hs hl hH
      · intro hn
        rw [hn] at e2
        exact ⟨_, rfl, by rw [e2], by rw [e2]; exact h⟩
      · intro p f' hp hf'
        rw [hp] at e2
        refine wp_pure ⟨by rw [e2], by rw [e2]; exact hf'.shows h.left h.ka⟩
      · exact X0
      · intro p f' hp hf'
        rw [hp] at e2
        exact ⟨_, Or.inr ⟨by rw [e2], rfl⟩, by rw [e2]; exact hf'⟩
  · exact X0

theorem ends_changePin (hs : x.Sized) (hlen : ∀ k iv c, (x.cbcDec k iv c).length = c.length) (h : Shows m ⟨f, r⟩)
    (hw : (if q.proto = 1 then 64 else 80) ≤ q.newPinEnc.length)
    (hw' : (if q.proto = 1 then 16 else 32) ≤ q.pinHashEnc.length) :
    Ends (cpChangePin x q) (m.changePin x q)
      (fun m' => m' = m ∨ (m.gate = none ∧ (decapsulate x m.ka q.key q.proto).isSome = true ∧
          (m.changePin x q).1 ≠ .err 0x33 ∧ m' = m.charge) ∨
        ((m.changePin x q).1 = .resp .empty ∧ m' = { m.charge with pin := (m.changePin x q).2.pin })) f r := by
  have hH := shows_holds h
  have e := Mach.changePin.eq_def x m q
  have X0 : ∃ m', (m' = m ∨ (m.gate = none ∧ (decapsulate x m.ka q.key q.proto).isSome = true ∧
          (m.changePin x q).1 ≠ .err 0x33 ∧ m' = m.charge) ∨
        ((m.changePin x q).1 = .resp .empty ∧ m' = { m.charge with pin := (m.changePin x q).2.pin })) ∧ Holds m' f :=
    ⟨m, Or.inl rfl, hH⟩
  unfold Ends cpChangePin
  apply wp_bind
  apply wp_gate h
  · intro k p hg hp hk h0 hl0
    rw [hg] at e
    apply wp_bind
    unfold shared
    apply wp_bind
    apply wp_get
    have hka : r.ka = m.ka := h.ka
    rw [hka]
    cases hz : decapsulate x m.ka q.key q.proto with
    | none =>
      rw [hz] at e
      exact wp_fail ⟨_, rfl, by rw [e], by rw [e]; exact h⟩
    | some z =>
      rw [hz] at e
      apply wp_pure
      apply wp_bind
      rw [← newField_eq, ← hashField_eq]
      apply wp_failIf
      · intro hv
        have hv' : ¬ Authenticates x (z.take 32) (newField q ++ hashField q) q.pinAuth q.proto := by
          intro ha
          rw [authenticates_iff.mpr ha] at hv
          cases hv
        have e2 := e.trans (if_pos hv')
        exact ⟨_, rfl, by rw [e2], by rw [e2]; exact h⟩
      intro hv
      have hv' : ¬ ¬ Authenticates x (z.take 32) (newField q ++ hashField q) q.pinAuth q.proto := by
        intro ha
        exact ha (authenticates_iff.mp (by simpa using hv))
      have e2 := e.trans (if_neg hv')
      clear e
      obtain ⟨t, ht, hl⟩ := decrypt_new (x := x) (z := z) hlen hw
      have hnp : newPin x z q = pinOf t := by
        unfold newPin
        rw [ht]
        rfl
      have hne : (m.changePin x q).1 ≠ .err 0x33 := by
        rw [e2]
        split
        · intro hc
          have hc := Out.err.inj hc
          unfold Mach.wrong at hc
          dsimp only at hc
          split at hc
          · cases hc
          · dsimp only at hc
            split at hc <;> cases hc
        · cases newPin x z q with
          | none => intro hc; cases hc
          | some p => intro hc; cases hc
      have X1 : ∀ f', Holds m.charge f' → ∃ m', (m' = m ∨ (m.gate = none ∧ (some z).isSome = true ∧
          (m.changePin x q).1 ≠ .err 0x33 ∧ m' = m.charge) ∨
          ((m.changePin x q).1 = .resp .empty ∧ m' = { m.charge with pin := (m.changePin x q).2.pin })) ∧ Holds m' f' :=
        fun f' hf' => ⟨_, Or.inr (Or.inl ⟨hg, rfl, hne, rfl⟩), hf'⟩
      apply wp_bind
      apply wp_compare h hp hk hw'
      · intro f' hsh hf'
        have e3 := e2.trans (if_neg (fun hn => hn hsh))
        clear e2
        rw [hnp] at e3
        apply wp_bind
        unfold decryptOr
        rw [ht]
        apply wp_pure
        apply wp_bind
        apply wp_store hs hl hf'
        · intro hn
          rw [hn] at e3
          exact ⟨_, rfl, by rw [e3], by rw [e3]; exact ⟨hf'.ready, hf'.pin, hf'.size, hf'.tries, rfl, h.ka⟩⟩
        · intro p f'' hp hf''
          rw [hp] at e3
          exact wp_pure ⟨by rw [e3], by rw [e3]; exact ⟨hf''.ready, hf''.pin, hf''.size, hf''.tries, rfl, h.ka⟩⟩
        · exact X1 f' hf'
        · intro p f'' hp hf''
          rw [hp] at e3
          exact ⟨_, Or.inr (Or.inr ⟨by rw [e3], rfl⟩), by rw [e3]; exact hf''⟩
      · intro f' r' hsh hf'
        have e3 := e2.trans (if_pos hsh)
        exact ⟨_, rfl, by rw [e3], by rw [e3]; exact hf'⟩
      · exact ⟨m, Or.inl rfl, hH⟩
      · exact X1
  · intro c hc
    rw [hc] at e
    exact ⟨_, rfl, by rw [e], by rw [e]; exact h⟩
  · exact X0

theorem wrong_ne (m : Mach) (b : Bool) : (m.wrong b).1 ≠ 0x33 := by
  intro hc
  unfold Mach.wrong at hc
  dsimp only at hc
  split at hc
  · cases hc
  · dsimp only at hc
    split at hc <;> cases hc

theorem ends_getToken (h : Shows m ⟨f, r⟩) (hw' : (if q.proto = 1 then 16 else 32) ≤ q.pinHashEnc.length) :
    Ends (cpGetToken x i q) (m.getToken x i q)
      (fun m' => m' = m ∨ (m.gate = none ∧ (decapsulate x m.ka q.key q.proto).isSome = true ∧
          (m.getToken x i q).1 ≠ .err 0x33 ∧ m' = m.charge)) f r := by
  have hH := shows_holds h
  have e := Mach.getToken.eq_def x i m q
  unfold Ends cpGetToken
  apply wp_bind
  apply wp_gate h
  · intro k p hg hp hk h0 hl0
    rw [hg] at e
    apply wp_bind
    unfold shared
    apply wp_bind
    apply wp_get
    have hka : r.ka = m.ka := h.ka
    rw [hka]
    cases hz : decapsulate x m.ka q.key q.proto with
    | none =>
      rw [hz] at e
      exact wp_fail ⟨_, rfl, by rw [e], by rw [e]; exact h⟩
    | some z =>
      rw [hz] at e
      apply wp_pure
      have hne : (m.getToken x i q).1 ≠ .err 0x33 := by
        rw [e]
        dsimp only
        split
        · intro hc
          exact wrong_ne m false (Out.err.inj hc)
        · intro hc; cases hc
      have X1 : ∀ f', Holds m.charge f' → ∃ m', (m' = m ∨ (m.gate = none ∧ (some z).isSome = true ∧
          (m.getToken x i q).1 ≠ .err 0x33 ∧ m' = m.charge)) ∧ Holds m' f' :=
        fun f' hf' => ⟨_, Or.inr ⟨hg, rfl, hne, rfl⟩, hf'⟩
      apply wp_bind
      apply wp_compare h hp hk hw'
      · intro f' hsh hf'
        have e3 := e.trans (if_neg (fun hn => hn hsh))
        apply wp_bind
        unfold setPinRetries
        apply wp_wrOr
        · intro g hg'
          have hg1 := hf'.setTries hg'
          apply wp_bind
          apply wp_mod
          apply wp_bind
          apply wp_get
          apply wp_pure
          refine ⟨?_, by rw [e3]; exact ⟨hg1.ready, hg1.pin, hg1.size, hg1.tries, rfl, h.ka⟩⟩
          rw [e3]
          dsimp only
          congr 3
          unfold Tok.reset Tok.begin Tok.stop Tok.associate
          cases h5 : (q.sub == 5) with
          | true => simp
          | false => cases hrp : q.rp <;> simp
        · intro hn
          exact absurd hn (hf'.upd _)
        · intro hf
          exact absurd rfl hf
        · intro _
          exact X1 _ hf'
      · intro f' r' hsh hf'
        have e3 := e.trans (if_pos hsh)
        exact ⟨_, rfl, by rw [e3], by rw [e3]; exact hf'⟩
      · exact ⟨m, Or.inl rfl, hH⟩
      · exact X1
  · intro c hc
    rw [hc] at e
    exact ⟨_, rfl, by rw [e], by rw [e]; exact h⟩
  · exact ⟨m, Or.inl rfl, hH⟩

theorem Ends.mono {c : M Resp} {d : Out × Mach} {T T' : Mach → Prop} (h : Ends c d T f r) (hT : ∀ m, T m → T' m) :
    Ends c d T' f r :=
  wp_mono h (fun _ _ _ h => h) (fun _ _ _ h => h) (fun _ _ ⟨m', h1, h2⟩ => ⟨m', hT _ h1, h2⟩)

theorem ends_clientPin (hs : x.Sized) (hlen : ∀ k iv c, (x.cbcDec k iv c).length = c.length) (h : Shows m ⟨f, r⟩)
    (hw : Whole (.cbor i (.cp (.ok q)))) :
    Ends (clientPin x i (.ok q)) (m.clientPin x i q) (m.torn x i q) f r := by
  have hH := shows_holds h
  have e := Mach.clientPin.eq_def x i m q
  have X0 : ∃ m', m.torn x i q m' ∧ Holds m' f := ⟨m, Or.inl rfl, hH⟩
  unfold clientPin
  show Ends (if q.sub == 1 then _ else _) _ _ f r
  by_cases h1 : q.sub = 1
  · rw [if_pos (by simp [h1])]
    rw [if_pos h1] at e
    apply wp_bind
    apply wp_rdF
    · intro _
      have ht : rdCert (·.pinCtr) f = m.tries := h.tries
      exact wp_pure ⟨by rw [e, ht], by rw [e]; exact h⟩
    · intro hf
      exact absurd rfl hf
    · intro _
      exact X0
  rw [if_neg (by simp [h1])]
  rw [if_neg h1] at e
  by_cases h2 : q.sub = 2
  · rw [if_pos (by simp [h2])]
    rw [if_pos h2] at e
    apply wp_bind
    apply wp_get
    have ht : r.ka = m.ka := h.ka
    exact wp_pure ⟨by rw [e, ht], by rw [e]; exact h⟩
  rw [if_neg (by simp [h2])]
  rw [if_neg h2] at e
  by_cases h3 : q.sub = 3
  · rw [if_pos (by simp [h3])]
    rw [if_pos h3] at e
    have := ends_setPin (x := x) hs hlen h (hw.1 (Or.inl h3))
    rw [← e] at this
    apply this.mono
    rintro m' (hm | ⟨hm1, hm2⟩)
    · exact Or.inl hm
    · exact Or.inr (Or.inr (Or.inr (Or.inl ⟨h3, hm1, hm2⟩)))
  rw [if_neg (by simp [h3])]
  rw [if_neg h3] at e
  by_cases h4 : q.sub = 4
  · rw [if_pos (by simp [h4])]
    rw [if_pos h4] at e
    have := ends_changePin (x := x) hs hlen h (hw.1 (Or.inr h4)) (hw.2 (Or.inl h4))
    rw [← e] at this
    apply this.mono
    rintro m' (hm | ⟨hm1, hm2, hm3, hm4⟩ | ⟨hm1, hm2⟩)
    · exact Or.inl hm
    · exact Or.inr (Or.inr (Or.inl ⟨Or.inl h4, hm1, hm2, hm3, hm4⟩))
    · exact Or.inr (Or.inr (Or.inr (Or.inr ⟨h4, hm1, hm2⟩)))
  rw [if_neg (by simp [h4])]
  rw [if_neg h4] at e
  by_cases h5 : q.sub = 5 ∨ q.sub = 9
  · rw [if_pos (by simpa using h5)]
    rw [if_pos h5] at e
    have := ends_getToken (x := x) (i := i) h (hw.2 (Or.inr h5))
    rw [← e] at this
    apply this.mono
    rintro m' (hm | ⟨hm1, hm2, hm3, hm4⟩)
    · exact Or.inl hm
    · exact Or.inr (Or.inr (Or.inl ⟨Or.inr h5, hm1, hm2, hm3, hm4⟩))
  rw [if_neg (by simpa using h5)]
  rw [if_neg h5] at e
  exact wp_pure ⟨by rw [e], by rw [e]; exact h⟩

/-! ### Operations -/

/-- `Shows` does not look at the token or the last command. -/
theorem Shows.ram {m : Mach} {f : Flash} {r r' : Ram} (h : Shows m ⟨f, r⟩) (h1 : r'.consec = r.consec) (h2 : r'.ka = r.ka) :
    Shows m ⟨f, r'⟩ := ⟨h.ready, h.pin, h.size, h.tries, h1.trans h.left, h2.trans h.ka⟩

theorem ends_process {a : Req} {d : Out × Mach} {T : Mach → Prop} (h : Ends (handle x i a) d T f (aged i r)) :
    Ends (process x i a) d T f r := by
  unfold Ends process
  apply wp_bind
  apply wp_mod
  apply wp_bind
  apply wp_catch
  apply wp_mono h
  · intro b f' r' ⟨h1, h2⟩
    apply wp_bind
    apply wp_mod
    exact wp_pure ⟨h1, h2.ram rfl rfl⟩
  · rintro e f' r' ⟨c, rfl, h1, h2⟩
    apply wp_bind
    apply wp_mod
    exact wp_fail ⟨c, rfl, h1, h2.ram rfl rfl⟩
  · exact fun _ _ h => h

theorem step_ends {a : Req} {d : Out × Mach} {T : Mach → Prop} {s : St} {env : Env} (he : ∀ n, cutsOnly (env n))
    (h : Ends (handle x i a) d T s.flash (aged i s.ram)) {N : Out → Mach → Prop}
    (h1 : N d.1 d.2) (h2 : ∀ m', T m' → N .cut m'.off) :
    ∃ m', N (step x s (.cbor i a) env).2 m' ∧ Shows m' (step x s (.cbor i a) env).1 := by
  unfold step
  apply exec_wp (P := fun p => ∃ m', N p.2 m' ∧ Shows m' p.1) he (ends_process h)
  · rintro b f r ⟨hd, hsh⟩
    exact ⟨d.2, by rw [← hd]; exact h1, hsh⟩
  · rintro c f r ⟨c', hc, hd, hsh⟩
    cases hc
    exact ⟨d.2, by rw [← hd]; exact h1, hsh⟩
  · rintro u f r ⟨c', hc, _⟩
    cases hc
  · rintro f r ⟨m', hT, hH⟩
    exact ⟨_, h2 m' hT, hH.off⟩

/-- Part of the files is not looked at. -/
theorem Holds.keep {m : Mach} {f f' : Flash} (h : Holds m f) (hc : f'.cert = f.cert) (hl : f'.lb.isSome = true) : Holds m f' := by
  refine ⟨hl, ?_, h.size, ?_⟩
  · have := h.pin
    unfold rdCert at this ⊢
    rw [hc]
    exact this
  · have := h.tries
    unfold rdCert at this ⊢
    rw [hc]
    exact this

theorem Holds.updCert {m : Mach} {f f' : Flash} {g : Cert → Cert} (h : Holds m f) (hu : Ctap.updCert g f = some f')
    (h1 : ∀ c, (g c).pin = c.pin) (h2 : ∀ c, (g c).pinCtr = c.pinCtr) : Holds m f' := by
  obtain ⟨c, hc⟩ := h.cert
  have hp := h.pin
  have ht := h.tries
  unfold Ctap.updCert at hu
  rw [hc] at hu
  cases hu
  unfold rdCert at hp ht
  rw [hc] at hp ht
  exact ⟨h.ready, (h1 c).trans hp, h.size, (h2 c).trans ht⟩

/-- A reset that is not cut short. -/
theorem wp_wipe (h : Shows m ⟨f, r⟩) :
    wp cutsOnly (install i true) (fun _ f' r' => Shows m.wiped ⟨f', r'⟩) (fun _ _ _ => False)
      (fun f' _ => Holds m f' ∨ Holds m.wiped f') f r := by
  have hH := shows_holds h
  have key : ∀ {f : Flash} {n : Mach} {r : Ram} {u : Flash → Option Flash} {Q : Unit → Flash → Ram → Prop}
      {e : Err}, (∀ f', u f = some f' → Q () f' r) → u f ≠ none → (Holds m f ∨ Holds m.wiped f) →
      wp cutsOnly (Cmd.wrOr u e : M Unit) Q (fun _ _ _ => False) (fun f' _ => Holds m f' ∨ Holds m.wiped f') f r := by
    intro f n r u Q e h1 h2 h3
    apply wp_wrOr
    · exact h1
    · exact fun hn => absurd hn h2
    · exact fun hf => absurd rfl hf
    · exact fun _ => h3
  unfold install
  apply wp_bind
  apply wp_mod
  apply wp_bind
  apply wp_pure
  dsimp only
  rw [if_neg (by simp)]
  apply wp_bind
  refine key (n := m) (fun f1 h1 => ?_) (by simp) (Or.inl hH)
  cases h1
  have H1 : Holds m { f with dc := some ⟨[], f.dc.bind (·.attr)⟩ } := hH.keep rfl hH.ready
  apply wp_bind
  refine key (n := m) (fun f2 h2 => ?_) (by simp [updAttr]) (Or.inl H1)
  cases h2
  have H2 := H1.keep (f' := { f with dc := some ⟨[], some ⟨0, 0, false, false⟩⟩ }) rfl H1.ready
  apply wp_bind
  refine key (n := m) (fun f3 h3 => ?_) (by simp) (Or.inl H2)
  cases h3
  have H3 := H2.keep (f' := { f with dc := some ⟨[], some ⟨0, 0, false, false⟩⟩, dm := some [] }) rfl H2.ready
  obtain ⟨c, hc⟩ := hH.cert
  apply wp_bind
  refine key (n := m) (fun f4 h4 => ?_) (by simp) (Or.inl H3)
  cases h4
  have H4 : Holds m { f with
      cert := some (f.cert.getD ⟨[], none, none, none, none, none, none, none⟩)
      dc := some ⟨[], some ⟨0, 0, false, false⟩⟩
      dm := some [] } :=
    H3.keep (by rw [hc]; rfl) H3.ready
  apply wp_bind
  refine key (n := m) (fun f5 h5 => ?_) (H4.upd _) (Or.inl H4)
  have H5 := H4.updCert h5 (fun _ => rfl) (fun _ => rfl)
  apply wp_bind
  refine key (n := m) (fun f6 h6 => ?_) (H5.upd _) (Or.inl H5)
  have H6 : Holds m.wiped f6 := by
    obtain ⟨c, hc⟩ := H5.cert
    have ht := H5.tries
    unfold Ctap.updCert at h6
    rw [hc] at h6
    cases h6
    unfold rdCert at ht
    rw [hc] at ht
    exact ⟨H5.ready, rfl, (fun _ hn => by cases hn), ht⟩
  apply wp_bind
  refine key (n := m) (fun f7 h7 => ?_) (H6.upd _) (Or.inr H6)
  have H7 := H6.updCert h7 (fun _ => rfl) (fun _ => rfl)
  apply wp_bind
  refine key (n := m) (fun f8 h8 => ?_) (H7.upd _) (Or.inr H7)
  have H8 := H7.updCert h8 (fun _ => rfl) (fun _ => rfl)
  refine key (n := m) (fun f9 h9 => ?_) (by simp) (Or.inr H8)
  cases h9
  have H9 : Holds m.wiped { f8 with lb := some emptyLb } := H8.keep rfl rfl
  exact ⟨H9.ready, H9.pin, H9.size, H9.tries, rfl, by
    show r.ka + 1 = m.ka + 1
    rw [show r.ka = m.ka from h.ka]⟩

theorem ends_reset (h : Shows m ⟨f, r⟩) (hi : i.tick ≤ 10000) :
    Ends (handle x i .reset) (.resp .empty, m.wiped) (fun m' => m' = m ∨ m' = m.wiped) f r := by
  unfold handle resetData Ends
  apply wp_bind
  apply wp_failIf
  · intro hb
    simp only [decide_eq_true_eq] at hb
    exact absurd hi (by rw [UInt32.le_iff_toNat_le]; rw [GT.gt, UInt32.lt_iff_toNat_lt] at hb; omega)
  intro _
  apply wp_bind
  apply wp_mono (wp_wipe h)
  · exact fun _ f' r' h => wp_pure ⟨rfl, h⟩
  · exact fun _ _ _ h => h.elim
  · rintro f' _ (h | h)
    · exact ⟨m, Or.inl rfl, h⟩
    · exact ⟨_, Or.inr rfl, h⟩

theorem Shows.quiet {now : UInt32} {f' : Flash} {r' : Ram} (h : Shows m ⟨f, r⟩) (hq : Quiet now f r f' r') :
    Shows m ⟨f', r'⟩ :=
  ⟨hq.lb h.ready, hq.pin.trans h.pin, h.size, hq.pinCtr.trans h.tries, hq.consec.trans h.left, hq.ka.trans h.ka⟩

theorem shows_off {s : St} (h : Shows m s) : Shows m.off ⟨s.flash, Ram.init⟩ := (shows_holds h).off

/-- An installed device keeps its files when power is applied. -/
theorem wp_on {s : Flash} (hr : s.lb.isSome = true) {r : Ram} :
    wp cutsOnly (install i false) (fun _ f' r' => f' = s ∧ r'.consec = 3 ∧ r'.ka = r.ka + 1)
      (fun _ f' r' => f' = s ∧ r'.consec = 3 ∧ r'.ka = r.ka + 1) (fun f' _ => f' = s) s r := by
  unfold install
  apply wp_bind
  apply wp_mod
  apply wp_bind
  apply wp_rdF
  · intro _
    dsimp only
    rw [if_pos hr]
    apply wp_bind
    apply wp_rdOr
    · intro c _
      apply wp_mod
      exact ⟨rfl, rfl, rfl⟩
    · intro _
      exact ⟨rfl, rfl, rfl⟩
    · intro _
      exact ⟨rfl, rfl, rfl⟩
    · intro _
      rfl
  · intro hf
    exact absurd rfl hf
  · intro _
    rfl

/-- A command that only reads and writes other things. -/
theorem step_quiet {a : Req} {s : St} {env : Env} (hs : x.Sized) (h : Shows m s) (h1 : ∀ q, a ≠ .cp q) (h2 : a ≠ .reset)
    (h3 : a ≠ .info) : ∃ m', m.Next x (.cbor i a) (step x s (.cbor i a) env).2 m' ∧ Shows m' (step x s (.cbor i a) env).1 := by
  have hr : (Op.cbor i a).resets = false := by
    cases a <;> first | rfl | exact absurd rfl h2
  obtain ⟨o, r', he, ho⟩ := step_cbor (A := fun _ => True) x i hs s a (env := env) (fun _ => trivial)
  have hq : Quiet i.tick s.flash (aged i s.ram) (step x s (.cbor i a) env).1.flash r' := by
    cases he with
    | quiet h => exact h
    | token => exact absurd rfl (h1 _)
    | changed => exact absurd rfl (h1 _)
    | failed => exact absurd rfl (h1 _)
    | cut => exact absurd rfl (h1 _)
    | set => exact absurd rfl (h1 _)
    | reset => exact absurd rfl h2
  have h0 : Shows m ⟨s.flash, aged i s.ram⟩ := Shows.ram (r := s.ram) h rfl rfl
  have hx := h0.quiet hq
  generalize step x s (.cbor i a) env = p at ho hx ⊢
  obtain ⟨⟨pf, pr⟩, po⟩ := p
  rcases ho with ⟨h4, _, h5⟩ | ⟨h4, h5⟩
  · cases h4
    cases h5
    exact ⟨m.off, .otherCut hr (fun j q hh => by cases hh; exact h1 _ rfl), shows_off hx⟩
  · cases h4
    refine ⟨m, .other hr (fun j q hh => by cases hh; exact h1 _ rfl) (fun j hh => by cases hh; exact h3 rfl) rfl ?_, hx⟩
    rcases h5 with ⟨_, _, h5⟩ | ⟨_, _, h5⟩ | ⟨_, _, h5⟩
    all_goals
      intro hc
      rw [show po = Out.cut from hc] at h5
      cases h5

theorem exec_cut {α : Type} {c : M α} {g : α → Out} {s : St} {env : Env} (hg : ∀ a, g a ≠ .cut)
    (h : (exec c g s env).2 = .cut) : (exec c g s env).1.ram = Ram.init := by
  unfold exec at h ⊢
  cases hm : c.run ⟨s.flash, s.ram, env⟩ with
  | mk o w =>
    rw [hm] at h
    cases o with
    | none => rfl
    | some y =>
      cases y with
      | ok a => exact absurd h (hg a)
      | error e => cases e <;> cases h

/-- A power cut empties RAM. -/
theorem step_cut {s : St} {op : Op} {env : Env} (h : (step x s op env).2 = .cut) : (step x s op env).1.ram = Ram.init := by
  cases op <;> exact exec_cut (fun _ h => by cases h) h

/-- One operation. -/
theorem step_next {op : Op} {s : St} {env : Env} (hs : x.Sized) (hlen : ∀ k iv c, (x.cbcDec k iv c).length = c.length)
    (he : noFail env) (hw : Whole op) (h : Shows m s) :
    ∃ m', m.Next x op (step x s op env).2 m' ∧ Shows m' (step x s op env).1 := by
  have he' : ∀ n, cutsOnly (env n) := he
  have hot : ∀ op, (∀ i q, op ≠ .cbor i q) → (∀ i, op ≠ .powerOn i) → (∀ i, op ≠ .adminReset i) →
      ∃ m', m.Next x op (step x s op env).2 m' ∧ Shows m' (step x s op env).1 := by
    intro op h1 h2 h3
    have hr : op.resets = false := by
      cases op with
      | adminReset i => exact absurd rfl (h3 i)
      | cbor i q => exact absurd rfl (h1 i q)
      | _ => rfl
    have hp : op.powers = false := by
      cases op with
      | powerOn i => exact absurd rfl (h2 i)
      | _ => rfl
    have ho := step_other x s op env h1
    have hi := step_cut (x := x) (s := s) (op := op) (env := env)
    generalize step x s op env = p at ho hi ⊢
    cases ho with
    | boot => exact absurd rfl (h2 _)
    | reset => exact absurd rfl (h3 _)
    | @u2f i q f' r' o hq =>
      have hx := h.quiet hq
      by_cases hc : o = .cut
      · cases hi hc
        cases hc
        exact ⟨m.off, .otherCut hr (fun _ _ hh => by cases hh), shows_off hx⟩
      · exact ⟨m, .other hr (fun _ _ hh => by cases hh) (fun _ hh => by cases hh) hp hc, hx⟩
    | u2fCut hq =>
      exact ⟨m.off, .otherCut hr (fun _ _ hh => by cases hh), shows_off (h.quiet hq)⟩
    | @admin _ f' r' o _ _ _ hq hr' =>
      have hx := h.quiet (hq 0 s.ram)
      rcases hr' with ⟨rfl, rfl⟩ | hr'
      · exact ⟨m.off, .otherCut hr (fun i q hh => h1 i _ hh), shows_off hx⟩
      · by_cases hc : o = .cut
        · cases hi hc
          cases hc
          exact ⟨m.off, .otherCut hr (fun i q hh => h1 i _ hh), shows_off hx⟩
        · exact ⟨m, .other hr (fun i q hh => h1 i _ hh) (fun i hh => h1 i _ hh) hp hc,
            hx.ram (by rw [hr']) (by rw [hr'])⟩
  cases op with
  | cbor i a =>
    have h0 : Shows m ⟨s.flash, aged i s.ram⟩ := Shows.ram (r := s.ram) h rfl rfl
    cases a with
    | cp q =>
      cases q with
      | ok q =>
        exact step_ends (a := .cp (.ok q)) he' (ends_clientPin hs hlen h0 hw) .clientPin (fun m' hT => .clientPinCut hT)
      | error c =>
        refine step_ends (d := (.err c, m)) (T := fun _ => False) he' ?_ .malformed (fun _ h => h.elim)
        exact wp_fail ⟨c, rfl, rfl, h0⟩
    | info =>
      refine step_ends (d := (.resp (.info m.pin.isSome), m)) (T := fun m' => m' = m) he' ?_ .info
        (fun m' hm => by rw [hm]; exact .otherCut rfl (fun _ _ hh => by cases hh))
      unfold handle
      apply wp_bind
      apply wp_hasPin' (shows_holds h0)
      · exact wp_pure ⟨rfl, h0⟩
      · exact ⟨m, rfl, shows_holds h0⟩
    | reset =>
      by_cases hi : i.tick ≤ 10000
      · exact step_ends he' (ends_reset h0 hi) (.early hi) (fun m' hm => .resetCut rfl hm)
      · have hi' : 10000 < i.tick := by
          rw [UInt32.le_iff_toNat_le] at hi
          rw [UInt32.lt_iff_toNat_lt]
          omega
        refine step_ends (d := (.err 0x30, m)) (T := fun _ => False) he' ?_ (.late hi') (fun _ h => h.elim)
        unfold handle resetData
        apply wp_bind
        apply wp_failIf
        · intro _
          exact ⟨_, rfl, rfl, h0⟩
        · intro hb
          simp only [decide_eq_false_iff_not] at hb
          exact absurd hi' hb
    | _ => exact step_quiet hs h (fun _ hh => by cases hh) (fun hh => by cases hh) (fun hh => by cases hh)
  | powerOn i =>
    show ∃ m', m.Next x (.powerOn i) (exec (install i false) (fun _ => .done) ⟨s.flash, Ram.init⟩ env).2 m' ∧
      Shows m' (exec (install i false) (fun _ => .done) ⟨s.flash, Ram.init⟩ env).1
    apply exec_wp (P := fun p => ∃ m', m.Next x (.powerOn i) p.2 m' ∧ Shows m' p.1) (s := ⟨s.flash, Ram.init⟩) he' (wp_on (i := i) h.ready)
    · rintro _ f r ⟨rfl, h1, h2⟩
      exact ⟨_, .powerOn (fun h => by cases h), h.ready, h.pin, h.size, h.tries, h1, h2⟩
    · rintro _ f r ⟨rfl, h1, h2⟩
      exact ⟨_, .powerOn (fun h => by cases h), h.ready, h.pin, h.size, h.tries, h1, h2⟩
    · rintro _ f r ⟨rfl, h1, h2⟩
      exact ⟨_, .powerOn (fun h => by cases h), h.ready, h.pin, h.size, h.tries, h1, h2⟩
    · rintro f r rfl
      exact ⟨_, .otherCut rfl (fun _ _ hh => by cases hh), shows_off h⟩
  | adminReset i =>
    unfold step
    apply exec_wp (P := fun p => ∃ m', m.Next x (.adminReset i) p.2 m' ∧ Shows m' p.1) he' (wp_wipe (i := i) h)
    · exact fun _ f r h => ⟨_, .adminReset, h⟩
    · exact fun _ _ _ h => h.elim
    · exact fun _ _ _ h => h.elim
    · rintro f r (h | h)
      · exact ⟨_, .resetCut rfl (Or.inl rfl), h.off⟩
      · exact ⟨_, .resetCut rfl (Or.inr rfl), h.off⟩
  | _ => exact hot _ (fun _ _ hh => by cases hh) (fun _ hh => by cases hh) (fun _ hh => by cases hh)

/-- Whole histories. -/
theorem run_trace (hs : x.Sized) (hlen : ∀ k iv c, (x.cbcDec k iv c).length = c.length) :
    ∀ (ops : List (Op × Env)) (m : Mach) (s : St), (∀ p ∈ ops, noFail p.2 ∧ Whole p.1) → Shows m s →
      ∃ m', m.Trace x ((ops.map (·.1)).zip (run x s ops).2) m' ∧ Shows m' (run x s ops).1 := by
  intro ops
  induction ops with
  | nil => exact fun m s _ h => ⟨m, .nil, h⟩
  | cons p rest ih =>
    intro m s hp h
    obtain ⟨op, env⟩ := p
    obtain ⟨m1, h1, h2⟩ := step_next hs hlen (hp _ (List.mem_cons_self)).1 (hp _ (List.mem_cons_self)).2 h
    obtain ⟨m2, h3, h4⟩ := ih m1 _ (fun q hq => hp q (List.mem_cons_of_mem _ hq)) h2
    exact ⟨m2, .cons h1 h3, h4⟩

/-! ### The first boot -/

/-- A device that has not been installed yet. -/
structure Raw (f : Flash) : Prop where
  lb : f.lb = none
  pin : rdCert (·.pin) f = none ∨ rdCert (·.pin) f = some []
  tries : rdCert (·.pinCtr) f = none

/-- The machine after installation. -/
def fresh : Mach := ⟨none, none, 3, 1⟩

theorem Raw.upd {f f' : Flash} {g : Cert → Cert} (h : Raw f) (hu : Ctap.updCert g f = some f')
    (h1 : ∀ c, (g c).pin = c.pin ∨ (g c).pin = some []) (h2 : ∀ c, (g c).pinCtr = c.pinCtr) : Raw f' := by
  have hp := h.pin
  have ht := h.tries
  unfold Ctap.updCert at hu
  cases hc : f.cert with
  | none => rw [hc] at hu; cases hu
  | some c =>
    rw [hc] at hu
    cases hu
    unfold rdCert at hp ht
    rw [hc] at hp ht
    refine ⟨h.lb, ?_, (h2 c).trans ht⟩
    rcases h1 c with e | e
    · show (g c).pin = none ∨ (g c).pin = some []
      rw [e]
      exact hp
    · exact Or.inr e

theorem Raw.keep {f f' : Flash} (h : Raw f) (hc : f'.cert = f.cert) (hl : f'.lb = f.lb) : Raw f' := by
  have hp := h.pin
  have ht := h.tries
  unfold rdCert at hp ht
  refine ⟨hl.trans h.lb, ?_, ?_⟩
  · unfold rdCert
    rw [hc]
    exact hp
  · unfold rdCert
    rw [hc]
    exact ht

theorem wp_first (h : Raw f) (hr : r.ka = 0) :
    wp cutsOnly (install i false) (fun _ f' r' => Shows fresh ⟨f', r'⟩) (fun _ _ _ => False) (fun f' _ => Raw f') f r := by
  have key : ∀ {f : Flash} {r : Ram} {u : Flash → Option Flash} {Q : Unit → Flash → Ram → Prop}
      {e : Err}, (∀ f', u f = some f' → Q () f' r) → u f ≠ none → Raw f →
      wp cutsOnly (Cmd.wrOr u e : M Unit) Q (fun _ _ _ => False) (fun f' _ => Raw f') f r := by
    intro f r u Q e h1 h2 h3
    apply wp_wrOr
    · exact h1
    · exact fun hn => absurd hn h2
    · exact fun hf => absurd rfl hf
    · exact fun _ => h3
  have uc : ∀ {f : Flash} (c : Cert) (g : Cert → Cert), f.cert = some c → Ctap.updCert g f ≠ none := by
    intro f c g hc hn
    unfold Ctap.updCert at hn
    rw [hc] at hn
    cases hn
  have up : ∀ {f f' : Flash} {g : Cert → Cert}, Ctap.updCert g f = some f' → ∃ c, f'.cert = some (g c) ∧ f.cert = some c := by
    intro f f' g hu
    unfold Ctap.updCert at hu
    cases hc : f.cert with
    | none => rw [hc] at hu; cases hu
    | some c => rw [hc] at hu; cases hu; exact ⟨c, rfl, rfl⟩
  unfold install
  apply wp_bind
  apply wp_mod
  apply wp_bind
  apply wp_rdF
  · intro _
    dsimp only
    rw [if_neg (by rw [h.lb]; simp)]
    apply wp_bind
    refine key (fun f1 h1 => ?_) (by simp) h
    cases h1
    have H1 : Raw { f with dc := some ⟨[], f.dc.bind (·.attr)⟩ } := h.keep rfl rfl
    apply wp_bind
    refine key (fun f2 h2 => ?_) (by simp [updAttr]) H1
    cases h2
    have H2 := H1.keep (f' := { f with dc := some ⟨[], some ⟨0, 0, false, false⟩⟩ }) rfl rfl
    apply wp_bind
    refine key (fun f3 h3 => ?_) (by simp) H2
    cases h3
    have H3 := H2.keep (f' := { f with dc := some ⟨[], some ⟨0, 0, false, false⟩⟩, dm := some [] }) rfl rfl
    apply wp_bind
    refine key (fun f4 h4 => ?_) (by simp) H3
    cases h4
    have H4 : Raw { f with
        cert := some (f.cert.getD ⟨[], none, none, none, none, none, none, none⟩)
        dc := some ⟨[], some ⟨0, 0, false, false⟩⟩
        dm := some [] } := by
      have hp := H3.pin
      have ht := H3.tries
      refine ⟨H3.lb, ?_, ?_⟩
      · unfold rdCert at hp ⊢
        cases hc : f.cert with
        | none => exact Or.inl rfl
        | some c => rw [hc] at hp; exact hp
      · unfold rdCert at ht ⊢
        cases hc : f.cert with
        | none => rfl
        | some c => rw [hc] at ht; exact ht
    apply wp_bind
    refine key (fun f5 h5 => ?_) (uc _ _ rfl) H4
    have H5 := H4.upd h5 (fun _ => Or.inl rfl) (fun _ => rfl)
    obtain ⟨c5, e5, _⟩ := up h5
    apply wp_bind
    refine key (fun f6 h6 => ?_) (uc _ _ e5) H5
    have H6 := H5.upd h6 (fun _ => Or.inr rfl) (fun _ => rfl)
    obtain ⟨c6, e6, _⟩ := up h6
    have p6 : rdCert (·.pin) f6 = some [] := by
      unfold rdCert
      rw [e6]
      rfl
    apply wp_bind
    refine key (fun f7 h7 => ?_) (uc _ _ e6) H6
    have H7 := H6.upd h7 (fun _ => Or.inl rfl) (fun _ => rfl)
    obtain ⟨c7, e7, e7'⟩ := up h7
    have p7 : rdCert (·.pin) f7 = some [] := by
      unfold rdCert at p6 ⊢
      rw [e7]
      rw [e7'] at p6
      exact p6
    apply wp_bind
    refine key (fun f8 h8 => ?_) (uc _ _ e7) H7
    have H8 := H7.upd h8 (fun _ => Or.inl rfl) (fun _ => rfl)
    obtain ⟨c8, e8, e8'⟩ := up h8
    have p8 : rdCert (·.pin) f8 = some [] := by
      unfold rdCert at p7 ⊢
      rw [e8]
      rw [e8'] at p7
      exact p7
    refine key (fun f9 h9 => ?_) (by simp) H8
    cases h9
    exact ⟨rfl, p8, (fun _ hn => by cases hn), H8.tries, rfl, by
      show r.ka + 1 = 1
      rw [hr]⟩
  · intro hf
    exact absurd rfl hf
  · intro _
    exact h

/-- Applying power to a device that is not installed: it is installed, unless power fails. -/
theorem step_first {s : St} {env : Env} (he : noFail env) (h : Raw s.flash) :
    ((step x s (.powerOn i) env).2 = .done ∧ Shows fresh (step x s (.powerOn i) env).1) ∨
    ((step x s (.powerOn i) env).2 = .cut ∧ Raw (step x s (.powerOn i) env).1.flash) := by
  show ((exec (install i false) (fun _ => .done) ⟨s.flash, Ram.init⟩ env).2 = .done ∧
      Shows fresh (exec (install i false) (fun _ => .done) ⟨s.flash, Ram.init⟩ env).1) ∨
    ((exec (install i false) (fun _ => .done) ⟨s.flash, Ram.init⟩ env).2 = .cut ∧
      Raw (exec (install i false) (fun _ => .done) ⟨s.flash, Ram.init⟩ env).1.flash)
  apply exec_wp (P := fun p => (p.2 = .done ∧ Shows fresh p.1) ∨ (p.2 = .cut ∧ Raw p.1.flash)) (s := ⟨s.flash, Ram.init⟩)
    (A := cutsOnly) he (wp_first (i := i) h rfl)
  · exact fun _ f r h => Or.inl ⟨rfl, h⟩
  · exact fun _ _ _ h => h.elim
  · exact fun _ _ _ h => h.elim
  · exact fun f r h => Or.inr ⟨rfl, h⟩

end
end Verif.Spec.FidoPin
