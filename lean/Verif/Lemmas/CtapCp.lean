import Verif.Lemmas.CtapPin
import Verif.Lemmas.CtapFrame
/-
What the clientPIN subcommands that compare a PIN can do.
-/
namespace Verif.Ctap
open Cmd

/-- The retry counter was decremented and nothing else changed on flash. -/
def Charged (f f' : Flash) : Prop :=
  ∃ c k, f.cert = some c ∧ c.pinCtr = some k ∧ k ≠ 0 ∧ f' = { f with cert := some { c with pinCtr := some (k - 1) } }

/-- The presented hash is the stored one. -/
def Match (x : Ext) (ka : Nat) (q : CpReq) (f : Flash) : Prop :=
  ∃ h, rdCert (·.pin) f = some h ∧ 16 ≤ h.length ∧ presented x ka q = some (h.take 16)

/-- Why a comparison may not have taken place after the charge. -/
def Unread (A : Fault → Prop) (x : Ext) (ka : Nat) (q : CpReq) (f : Flash) : Prop :=
  A .fail ∨ (presented x ka q = none ∧ q.pinHashEnc.length < 16) ∨ ∀ h, rdCert (·.pin) f = some h → h.length < 16

variable {A : Fault → Prop} {f : Flash} {r : Ram} (x : Ext) (i : In) (q : CpReq)

theorem decrypt_none {z : Bytes} {q : CpReq} {x : Ext} (h : decrypt x z (q.pinHashEnc.take (hashSize q.proto)) q.proto = none) :
    q.pinHashEnc.length < 16 := by
  unfold decrypt at h
  split at h
  · cases h
  · split at h
    · rename_i h1 h2
      unfold hashSize at h2
      rw [List.length_take] at h2
      split at h2 <;> omega
    · cases h

theorem wp_hasPin {Q : Bool → Flash → Ram → Prop} {E : Err → Flash → Ram → Prop} {X : Flash → Ram → Prop}
    (h : ∀ b, (A .fail ∨ b = ((rdCert (·.pin) f).map fun q => !q.isEmpty).getD true) → (A .fail → b = true ∨ b = ((rdCert (·.pin) f).map fun q => !q.isEmpty).getD true) → Q b f r)
    (hx : A .cut → X f r) : wp A hasPin Q E X f r := by
  unfold hasPin
  apply wp_bind
  apply wp_rdF
  · intro _
    cases hp : rdCert (·.pin) f with
    | none => exact wp_pure (h _ (Or.inr (by simp [hp])) (fun _ => Or.inl rfl))
    | some p => exact wp_pure (h _ (Or.inr (by simp [hp])) (fun _ => Or.inr (by simp [hp])))
  · intro hf
    exact wp_pure (h _ (Or.inl hf) (fun _ => Or.inl rfl))
  · exact hx

theorem wp_pinGate {Q : Byte → Flash → Ram → Prop} {E : Err → Flash → Ram → Prop} {X : Flash → Ram → Prop}
    (hQ : ∀ k, rdCert (·.pinCtr) f = some k → k ≠ 0 → r.consec ≠ 0 → Q (k - 1) f r)
    (hE : ∀ c, E (.code c) f r) (hx : X f r) : wp A pinGate Q E X f r := by
  unfold pinGate pinRetries
  apply wp_bind
  apply wp_hasPin
  · intro b _ _
    apply wp_bind; apply wp_failIf
    · intro _; exact hE _
    intro _
    apply wp_bind
    apply wp_rdOr
    · intro k hk
      apply wp_bind; apply wp_failIf
      · intro _; exact hE _
      intro hk0
      apply wp_bind; apply wp_get
      apply wp_bind; apply wp_failIf
      · intro _; exact hE _
      intro hc
      exact wp_pure (hQ k hk (by simpa using hk0) (by simpa using hc))
    · intro _; exact hE _
    · intro _; exact hE _
    · intro _; exact hx
  · intro _; exact hx

theorem charged_of {g : Flash} {k : Byte} (hk : rdCert (·.pinCtr) f = some k) (h0 : k ≠ 0)
    (hg : updCert (fun c => { c with pinCtr := some (k - 1) }) f = some g) : Charged f g := by
  unfold rdCert at hk
  unfold updCert at hg
  cases hc : f.cert with
  | none => rw [hc] at hk; cases hk
  | some c =>
    rw [hc] at hk hg
    exact ⟨c, k, hc, hk, h0, (Option.some.inj hg).symm⟩

theorem Charged.pin {g : Flash} (h : Charged f g) : rdCert (·.pin) g = rdCert (·.pin) f := by
  obtain ⟨c, k, h1, _, _, rfl⟩ := h
  simp [rdCert, h1]

/-- How a failed comparison ends. -/
structure Wrong (A : Fault → Prop) (regen : Bool) (f : Flash) (r : Ram) (c : Byte) (f' : Flash) (r' : Ram) : Prop where
  charged : Charged f f'
  tok : r'.tok = r.tok
  out : (f'.tries = 0 ∧ c = Code.pinBlocked ∧ r'.consec = r.consec) ∨
    (f'.tries ≠ 0 ∧ r'.consec = r.consec - 1 ∧ c = if r'.consec = 0 then Code.pinAuthBlocked else Code.pinInvalid)
  ka : r'.ka = if regen then r.ka + 1 else r.ka

theorem wp_pinCompare {z : Bytes} {k : Byte} {regen : Bool}
    {Q : Unit → Flash → Ram → Prop} {E : Err → Flash → Ram → Prop} {X : Flash → Ram → Prop}
    (hz : decapsulate x r.ka q.key q.proto = some z)
    (hk : rdCert (·.pinCtr) f = some k) (h0 : k ≠ 0)
    (hQ : ∀ g, Charged f g → Match x r.ka q f → Q () g { r with consec := 3 })
    (hE0 : A .fail → E (.code Code.unhandled) f r)
    (hE1 : ∀ g e, Charged f g → Unread A x r.ka q f → E e g r)
    (hE2 : ∀ g c r', ¬ Match x r.ka q f → Wrong A regen f r c g r' →
      (∀ t, r'.tok = t → r' = { r with ka := r'.ka, consec := r'.consec }) → E (.code c) g r')
    (hX0 : X f r) (hX1 : ∀ g, Charged f g → X g r) :
    wp A (pinCompare x q z (k - 1) regen) Q E X f r := by
  unfold pinCompare setPinRetries
  have hcert : ∃ c, f.cert = some c := by
    unfold rdCert at hk
    cases hc : f.cert with
    | none => rw [hc] at hk; cases hk
    | some c => exact ⟨c, rfl⟩
  apply wp_bind
  apply wp_wrOr
  · intro g hg
    have hch := charged_of hk h0 hg
    have hpr : presented x r.ka q = (decrypt x z (q.pinHashEnc.take (hashSize q.proto)) q.proto).map fun c => c.take 16 := by
      unfold presented
      rw [hz]
      rfl
    apply wp_bind
    unfold decryptOr
    cases hd : decrypt x z (q.pinHashEnc.take (hashSize q.proto)) q.proto with
    | none =>
      rw [hd] at hpr
      exact wp_fail (hE1 g _ hch (Or.inr (Or.inl ⟨hpr, decrypt_none hd⟩)))
    | some cand =>
      rw [hd] at hpr
      apply wp_pure
      apply wp_bind
      unfold verifyPinHash
      apply wp_bind
      apply wp_rdOr
      · intro h hh
        rw [hch.pin] at hh
        by_cases hl : h.length < 16
        · rw [if_pos hl]
          apply wp_bind
          refine wp_throw (hE1 g _ hch (Or.inr (Or.inr ?_)))
          intro h' hh'
          rw [hh] at hh'
          cases hh'
          exact hl
        · rw [if_neg hl]
          apply wp_pure
          cases hm : (h.take 16 == cand.take 16) with
          | true =>
            apply wp_mod
            apply hQ g hch
            refine ⟨h, hh, by omega, ?_⟩
            rw [hpr, eq_of_beq hm]
            rfl
          | false =>
            have hne : ¬ Match x r.ka q f := by
              rintro ⟨h', hh', _, hp'⟩
              rw [hh] at hh'
              cases hh'
              rw [hpr] at hp'
              simp only [Option.map_some, Option.some.injEq] at hp'
              rw [hp'] at hm
              simp at hm
            have htr : g.tries = (k - 1).toNat := by
              obtain ⟨c, k', h1, h2, _, rfl⟩ := hch
              have : k' = k := by
                unfold rdCert at hk
                rw [h1] at hk
                exact Option.some.inj (h2.symm.trans hk)
              subst this
              rfl
            have hz0 : (k - 1 == 0) = true → g.tries = 0 := by
              intro h
              rw [htr, eq_of_beq h]
              rfl
            have hz1 : (k - 1 == 0) = false → g.tries ≠ 0 := by
              intro h h'
              rw [htr] at h'
              have : k - 1 = 0 := by
                apply UInt8.toNat_inj.mp
                exact h'
              rw [this] at h
              cases h
            rw [if_neg (by simp)]
            cases regen
            all_goals
              first
              | (rw [if_pos rfl]; apply wp_bind; apply wp_mod)
              | rw [if_neg (by simp)]
              apply wp_bind
              apply wp_failIf
              · intro hb
                exact hE2 g _ _ hne ⟨hch, rfl, Or.inl ⟨hz0 hb, rfl, rfl⟩, rfl⟩ (fun _ _ => rfl)
              · intro hb
                apply wp_bind
                apply wp_mod
                apply wp_bind
                apply wp_get
                apply wp_fail
                exact hE2 g _ _ hne ⟨hch, rfl, Or.inr ⟨hz1 hb, rfl, by simp only [beq_iff_eq]⟩, rfl⟩ (fun _ _ => rfl)
      · intro hn
        rw [hch.pin] at hn
        refine hE1 g _ hch (Or.inr (Or.inr ?_))
        intro h' hh'
        rw [hn] at hh'
        cases hh'
      · intro hf
        exact hE1 g _ hch (Or.inl hf)
      · intro _
        exact hX1 g hch
  · intro hn
    obtain ⟨c, hc⟩ := hcert
    unfold updCert at hn
    rw [hc] at hn
    cases hn
  · exact hE0
  · intro _; exact hX0

/-- A token made for a request: fresh, with the requested authority. -/
def newTok (t : Tok) : Tok :=
  ⟨i.rndTok, if q.sub = 5 then none else q.rp, if q.sub = 5 then 0x03 else q.perms, true, true, false,
    i.tick' + 30000⟩

/-- How the subcommands that compare a PIN can fail. -/
inductive CpFail (A : Fault → Prop) (regen : Bool) (f : Flash) (r : Ram) : Err → Flash → Ram → Prop
  /-- before the charge -/
  | early (c : Byte) : CpFail A regen f r (.code c) f r
  /-- charged, but nothing was compared -/
  | unread (e : Err) (g : Flash) : Charged f g → Unread A x r.ka q f → CpFail A regen f r e g r
  /-- compared and found wrong -/
  | wrong (c : Byte) (g : Flash) (r' : Ram) : ¬ Match x r.ka q f → Wrong A regen f r c g r' →
      r' = { r with ka := r'.ka, consec := r'.consec } → CpFail A regen f r (.code c) g r'
  /-- compared and found right, but a later step failed -/
  | right (c : Byte) (g g' : Flash) : Charged f g → Match x r.ka q f →
      (g' = g ∨ ∃ n, 16 ≤ n.length ∧ updCert (fun c => { c with pin := some n }) g = some g') →
      (g' ≠ g → regen = true) → CpFail A regen f r (.code c) g' { r with consec := 3 }

/-- How they can be cut off. -/
inductive CpCut (regen : Bool) (f : Flash) (ka : Nat) : Flash → Prop
  | early : CpCut regen f ka f
  | charged (g : Flash) : Charged f g → CpCut regen f ka g
  | right (g g' : Flash) : Charged f g → Match x ka q f → regen = true →
      (∃ n, 16 ≤ n.length ∧ updCert (fun c => { c with pin := some n }) g = some g') → CpCut regen f ka g'

theorem wp_getToken :
    wp A (cpGetToken x i q)
      (fun a f' r' => Match x r.ka q f ∧ updCert (fun c => { c with pinCtr := some 8 }) f = some f' ∧
        r' = { r with consec := 3, tok := newTok i q r.tok } ∧ r.consec ≠ 0 ∧
        ∃ z, decapsulate x r.ka q.key q.proto = some z ∧ a = .token (encrypt x i z i.rndTok q.proto))
      (CpFail x q A false f r) (fun f' _ => CpCut x q false f r.ka f') f r := by
  unfold cpGetToken
  apply wp_bind
  apply wp_pinGate
  · intro k hk h0 hc
    apply wp_bind
    unfold shared
    apply wp_bind
    apply wp_get
    cases hz : decapsulate x r.ka q.key q.proto with
    | none => exact wp_fail (.early _)
    | some z =>
      apply wp_pure
      apply wp_bind
      apply wp_pinCompare x q hz hk h0
      · intro g hg hm
        apply wp_bind
        unfold setPinRetries
        apply wp_wrOr
        · intro g' hg'
          apply wp_bind
          apply wp_mod
          apply wp_bind
          apply wp_get
          apply wp_pure
          refine ⟨hm, ?_, ?_, hc, z, rfl, ?_⟩
          · obtain ⟨c, k', h1, h2, h3, rfl⟩ := hg
            unfold updCert at hg' ⊢
            rw [h1]
            exact hg'
          · unfold newTok Tok.reset Tok.begin Tok.stop Tok.associate
            cases h5 : (q.sub == 5) with
            | true =>
              have : q.sub = 5 := eq_of_beq h5
              simp [this]
              decide
            | false =>
              have : q.sub ≠ 5 := by simpa using h5
              cases hrp : q.rp <;> simp [this]
          · unfold Tok.reset Tok.begin Tok.stop Tok.associate
            cases h5 : (q.sub == 5) with
            | true => simp
            | false => cases hrp : q.rp <;> simp
        · intro _
          exact .right _ g g hg hm (Or.inl rfl) (fun h => absurd rfl h)
        · intro _
          exact .right _ g g hg hm (Or.inl rfl) (fun h => absurd rfl h)
        · intro _
          exact .charged g hg
      · intro _
        exact .early _
      · intro g e hg hu
        exact .unread e g hg hu
      · intro g c r' hn hw hr
        exact .wrong c g r' hn hw (hr _ rfl)
      · exact .early
      · intro g hg
        exact .charged g hg
  · intro c
    exact .early c
  · exact .early

theorem wp_changePin (hs : x.Sized) :
    wp A (cpChangePin x q)
      (fun a f' r' => Match x r.ka q f ∧
        (∃ n, 16 ≤ n.length ∧ updCert (fun c => { c with pin := some n, pinCtr := some 8 }) f = some f') ∧
        r' = { r with consec := 3 } ∧ a = .empty)
      (CpFail x q A true f r) (fun f' _ => CpCut x q true f r.ka f') f r := by
  unfold cpChangePin
  apply wp_bind
  apply wp_pinGate
  · intro k hk h0 hc
    apply wp_bind
    unfold shared
    apply wp_bind
    apply wp_get
    cases hz : decapsulate x r.ka q.key q.proto with
    | none => exact wp_fail (.early _)
    | some z =>
      apply wp_pure
      apply wp_bind
      apply wp_failIf
      · intro _
        exact .early _
      intro _
      apply wp_bind
      apply wp_pinCompare x q hz hk h0
      · intro g hg hm
        apply wp_bind
        unfold decryptOr
        cases decrypt x z (q.newPinEnc.take (encSize q.proto)) q.proto with
        | none => exact wp_fail (.right _ g g hg hm (Or.inl rfl) (fun _ => rfl))
        | some plain =>
          apply wp_pure
          unfold storeNewPin
          apply wp_bind
          apply wp_bind
          apply wp_failIf
          · intro _
            exact .right _ g g hg hm (Or.inl rfl) (fun _ => rfl)
          intro _
          unfold setPin setPinRetries
          have hlen : ∀ b, 16 ≤ ((x.sha b).take 16).length := by
            intro b
            rw [List.length_take, hs b]
            decide
          apply wp_bind
          apply wp_wrOr
          · intro g' hg'
            apply wp_wrOr
            · intro g2 hg2
              apply wp_pure
              refine ⟨hm, ?_, rfl, rfl⟩
              refine ⟨(x.sha (plain.take (lastNonZero plain 63 + 1))).take 16, hlen _, ?_⟩
              obtain ⟨c, k', h1, h2, h3, rfl⟩ := hg
              unfold updCert at hg' hg2 ⊢
              cases hg'
              rw [h1]
              exact hg2
            · intro _
              exact .right _ g g' hg hm (Or.inr ⟨_, hlen _, hg'⟩) (fun _ => rfl)
            · intro _
              exact .right _ g g' hg hm (Or.inr ⟨_, hlen _, hg'⟩) (fun _ => rfl)
            · intro _
              exact .right g g' hg hm rfl ⟨_, hlen _, hg'⟩
          · intro _
            exact .right _ g g hg hm (Or.inl rfl) (fun _ => rfl)
          · intro _
            exact .right _ g g hg hm (Or.inl rfl) (fun _ => rfl)
          · intro _
            exact .charged g hg
      · intro _
        exact .early _
      · intro g e hg hu
        exact .unread e g hg hu
      · intro g c r' hn hw hr
        exact .wrong c g r' hn hw (hr _ rfl)
      · exact .early
      · intro g hg
        exact .charged g hg
  · intro c
    exact .early c
  · exact .early

/-- setPIN does nothing when a PIN is set. -/
theorem wp_setPin_set {h : Bytes} (hp : rdCert (·.pin) f = some h) (hne : h ≠ []) :
    wp A (cpSetPin x q) (fun _ _ _ => False) (fun e f' r' => f' = f ∧ r' = r ∧ e = .code Code.pinAuthInvalid)
      (fun f' r' => f' = f ∧ r' = r) f r := by
  unfold cpSetPin
  apply wp_bind
  apply wp_hasPin
  · intro b hb hb'
    have : b = true := by
      have hv : ((rdCert (·.pin) f).map fun q => !q.isEmpty).getD true = true := by
        rw [hp]
        simp [hne]
      rw [hv] at hb hb'
      cases hb with
      | inl hf => cases hb' hf <;> assumption
      | inr h => exact h
    rw [this]
    apply wp_bind
    apply wp_failIf
    · intro _
      exact ⟨rfl, rfl, rfl⟩
    · intro h
      cases h
  · intro _
    exact ⟨rfl, rfl⟩

end Verif.Ctap
