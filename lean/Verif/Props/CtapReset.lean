import Verif.Props.CtapBlob
/-
C65, C72, C74: the reset of the FIDO applet, and the tries of a new PIN.
-/
namespace Verif.Ctap
open Cmd

variable {x : Ext}

/-- The applet as a completed reset leaves it. -/
structure Fresh (i : In) (f : Flash) : Prop where
  pin : f.pinHash = none
  creds : rdRecs f = some []
  attr : rdAttr f = some ⟨0, 0, false, false⟩
  metas : f.dm = some []
  counter : f.counter = some 0
  kh : rdCert (·.kh) f = some i.rndKh
  he : rdCert (·.he) f = some i.rndHe
  blob : f.lb = some emptyLb

/-- What a reset does, step by step: nothing is changed, or the credentials are gone; and all is new if it
succeeds, as it does unless a write fails. -/
theorem wp_reset {A : Fault → Prop} (i : In) (f : Flash) (r : Ram) :
    wp A (install i true) (fun _ f' _ => Fresh i f') (fun _ f' _ => A .fail ∧ (f' = f ∨ rdRecs f' = some []))
      (fun f' _ => A .cut ∧ (f' = f ∨ rdRecs f' = some [])) f r := by
  unfold install
  apply wp_bind
  apply wp_mod
  apply wp_bind
  apply wp_pure
  apply wp_ite <;> intro hh
  · cases hh
  apply wp_bind
  apply wp_wrOr
  · intro f1 h1
    cases h1
    apply wp_bind
    apply wp_wrOr
    · intro f2 h2
      cases h2
      apply wp_bind
      apply wp_wrOr
      · intro f3 h3
        cases h3
        apply wp_bind
        apply wp_wrOr
        · intro f4 h4
          cases h4
          apply wp_bind
          apply wp_wrOr
          · intro f5 h5
            cases h5
            apply wp_bind
            apply wp_wrOr
            · intro f6 h6
              cases h6
              apply wp_bind
              apply wp_wrOr
              · intro f7 h7
                cases h7
                apply wp_bind
                apply wp_wrOr
                · intro f8 h8
                  cases h8
                  apply wp_wrOr
                  · intro f9 h9
                    cases h9
                    exact ⟨rfl, rfl, rfl, rfl, rfl, rfl, rfl, rfl⟩
                  · nofun
                  · exact fun h => ⟨h, Or.inr rfl⟩
                  · exact fun h => ⟨h, Or.inr rfl⟩
                · nofun
                · exact fun h => ⟨h, Or.inr rfl⟩
                · exact fun h => ⟨h, Or.inr rfl⟩
              · nofun
              · exact fun h => ⟨h, Or.inr rfl⟩
              · exact fun h => ⟨h, Or.inr rfl⟩
            · nofun
            · exact fun h => ⟨h, Or.inr rfl⟩
            · exact fun h => ⟨h, Or.inr rfl⟩
          · nofun
          · exact fun h => ⟨h, Or.inr rfl⟩
          · exact fun h => ⟨h, Or.inr rfl⟩
        · nofun
        · exact fun h => ⟨h, Or.inr rfl⟩
        · exact fun h => ⟨h, Or.inr rfl⟩
      · nofun
      · exact fun h => ⟨h, Or.inr rfl⟩
      · exact fun h => ⟨h, Or.inr rfl⟩
    · nofun
    · exact fun h => ⟨h, Or.inr rfl⟩
    · exact fun h => ⟨h, Or.inr rfl⟩
  · nofun
  · exact fun h => ⟨h, Or.inl rfl⟩
  · exact fun h => ⟨h, Or.inl rfl⟩

/-- Resetting over CTAP. -/
theorem reset_step (s : St) (i : In) (env : Env) :
    (∀ a, (step x s (.cbor i .reset) env).2 = .resp a → i.tick.toNat ≤ 10000 ∧ Fresh i (step x s (.cbor i .reset) env).1.flash) ∧
    ((step x s (.cbor i .reset) env).1.flash = s.flash ∨ rdRecs (step x s (.cbor i .reset) env).1.flash = some []) ∧
    (i.tick.toNat > 10000 → (step x s (.cbor i .reset) env).2 = .err Code.notAllowed ∧ (step x s (.cbor i .reset) env).1.flash = s.flash) := by
  refine cbor_wp (s := s) (i := i) (q := .reset) (env := env) (P := fun p : St × Out =>
    (∀ a, p.2 = .resp a → i.tick.toNat ≤ 10000 ∧ Fresh i p.1.flash) ∧ (p.1.flash = s.flash ∨ rdRecs p.1.flash = some []) ∧
    (i.tick.toNat > 10000 → p.2 = .err Code.notAllowed ∧ p.1.flash = s.flash)) (A := fun _ => True) (fun _ => trivial)
    (Q := fun _ f' _ => i.tick.toNat ≤ 10000 ∧ Fresh i f')
    (E := fun e f' _ => (f' = s.flash ∨ rdRecs f' = some []) ∧ (i.tick.toNat > 10000 → e = .code Code.notAllowed ∧ f' = s.flash))
    (X := fun f' _ => (f' = s.flash ∨ rdRecs f' = some []) ∧ i.tick.toNat ≤ 10000) ?_ ?_ ?_ ?_ ?_
  · show wp _ (resetData i) _ _ _ _ _
    unfold resetData
    apply wp_bind
    apply wp_failIf
    · intro _
      exact ⟨Or.inl rfl, fun _ => ⟨rfl, rfl⟩⟩
    intro ht
    have ht : i.tick.toNat ≤ 10000 := by
      have : ¬ (10000 < i.tick) := by simpa using ht
      rw [UInt32.lt_iff_toNat_lt] at this
      exact Nat.le_of_not_lt this
    apply wp_bind
    refine wp_mono (wp_reset i s.flash (aged i s.ram)) ?_ ?_ ?_
    · intro _ f r h
      exact wp_pure ⟨ht, h⟩
    · intro e f r h
      exact ⟨h.2, fun h' => by omega⟩
    · intro f r h
      exact ⟨h.2, ht⟩
  · rintro a f r ⟨h1, h2⟩
    exact ⟨fun _ _ => ⟨h1, h2⟩, Or.inr h2.creds, fun h => by omega⟩
  · rintro c f r ⟨h1, h2⟩
    refine ⟨nofun, h1, fun h => ?_⟩
    obtain ⟨h3, h4⟩ := h2 h
    cases h3
    exact ⟨rfl, h4⟩
  · rintro c f r ⟨h1, h2⟩
    refine ⟨nofun, h1, fun h => ?_⟩
    obtain ⟨h3, h4⟩ := h2 h
    cases h3
  · rintro f r ⟨h1, h2⟩
    exact ⟨nofun, h1, fun h => by omega⟩

/-- authenticatorReset succeeds only within the first ten seconds of the clock, and then everything is new. -/
theorem C65_window (s : St) (i : In) (env : Env) (a : Resp) (h : (step x s (.cbor i .reset) env).2 = .resp a) :
    i.tick.toNat ≤ 10000 ∧ Fresh i (step x s (.cbor i .reset) env).1.flash := (reset_step s i env).1 a h

/-- `t` milliseconds after power-up, more than ten seconds and less than 2^32, it is refused and changes nothing
on flash. -/
theorem C65_refused (s : St) (i : In) (env : Env) (t : Nat) (hi : i.tick = UInt32.ofNat t) (ht : 10000 < t) (hw : t < 2 ^ 32) :
    (step x s (.cbor i .reset) env).2 = .err Code.notAllowed ∧ (step x s (.cbor i .reset) env).1.flash = s.flash := by
  refine (reset_step s i env).2.2 ?_
  rw [hi, UInt32.toNat_ofNat_of_lt' hw]
  exact ht

/-- The clock of the platform has 32 bits: 49.7 days after power-up the window opens again. -/
theorem C65_wrap (s : St) (i : In) (t : Nat) (hi : i.tick = UInt32.ofNat (2 ^ 32 + t)) (ht : t ≤ 10000) :
    (step x s (.cbor i .reset) fun _ => .ok).2 = .resp .empty := by
  have hi : i.tick = UInt32.ofNat t := by
    rw [hi]
    apply UInt32.toNat_inj.mp
    simp
  refine cbor_wp (s := s) (i := i) (q := .reset) (env := fun _ => .ok) (P := fun p : St × Out => p.2 = .resp .empty)
    (A := allOk) (fun _ => rfl) (Q := fun a _ _ => a = .empty) (E := fun _ _ _ => False) (X := fun _ _ => False) ?_ ?_ ?_ ?_ ?_
  · show wp _ (resetData i) _ _ _ _ _
    unfold resetData
    apply wp_bind
    apply wp_failIf
    · intro h
      rw [hi] at h
      have : 10000 < UInt32.ofNat t := by simpa using h
      rw [UInt32.lt_iff_toNat_lt, UInt32.toNat_ofNat_of_lt' (by show t < 2 ^ 32; omega)] at this
      have : 10000 < t := this
      omega
    intro _
    apply wp_bind
    refine wp_mono (wp_reset i s.flash (aged i s.ram)) ?_ ?_ ?_
    · intro _ f r h
      exact wp_pure rfl
    · rintro e f r ⟨h, _⟩
      cases h
    · rintro f r ⟨h, _⟩
      cases h
  · rintro a f r rfl; rfl
  · intro _ _ _ h; exact h.elim
  · intro _ _ _ h; exact h.elim
  · intro _ _ h; exact h.elim

/-! ### C72 -/

/-- A reset that is interrupted or fails has changed nothing or has at least removed all resident credentials; a
reset that succeeds leaves nothing of the old applet.  Missing: after an interruption the device does not finish
the reset when powered on, so that credentials that are not resident survive. -/
theorem C72_partial (s : St) (i : In) (env : Env) :
    ((step x s (.cbor i .reset) env).1.flash = s.flash ∨ rdRecs (step x s (.cbor i .reset) env).1.flash = some []) ∧
    (∀ a, (step x s (.cbor i .reset) env).2 = .resp a → Fresh i (step x s (.cbor i .reset) env).1.flash) :=
  ⟨(reset_step s i env).2.1, fun a h => ((reset_step s i env).1 a h).2⟩

/-- The same for the reset by the administration applet. -/
theorem C72_admin_partial (s : St) (i : In) (env : Env) :
    ((step x s (.adminReset i) env).1.flash = s.flash ∨ rdRecs (step x s (.adminReset i) env).1.flash = some []) ∧
    ((step x s (.adminReset i) env).2 = .done → Fresh i (step x s (.adminReset i) env).1.flash) := by
  unfold step
  refine exec_wp (P := fun p : St × Out => (p.1.flash = s.flash ∨ rdRecs p.1.flash = some []) ∧ (p.2 = .done → Fresh i p.1.flash))
    (A := fun _ => True) (fun _ => trivial) (wp_reset i s.flash s.ram) ?_ ?_ ?_ ?_
  · exact fun _ f r h => ⟨Or.inr h.creds, fun _ => h⟩
  · exact fun _ f r h => ⟨h.2, nofun⟩
  · exact fun _ f r h => ⟨h.2, nofun⟩
  · exact fun f r h => ⟨h.2, nofun⟩

/-- After a reset that succeeded no credential of before signs: every assertion is signed with a key derived from
the new secret, and for a credential id with the relying party and the nonce of one whose tag verifies under it. -/
theorem C72_only_new_credentials (s : St) (i j : In) (e e' : Env) (q : Except Byte GaReq) (g : GaResp)
    (hr : ∃ a, (step x s (.cbor i .reset) e).2 = .resp a)
    (hg : (step x (step x s (.cbor i .reset) e).1 (.cbor j (.ga q)) e').2 = .resp (.ga g)) :
    g.key = khPri x i.rndKh (Cid.nonce g.cid) ∧
    ∃ c, Authentic x i.rndKh c ∧ Cid.nonce c = Cid.nonce g.cid ∧ Cid.rp c = Cid.rp g.cid := by
  obtain ⟨a, ha⟩ := hr
  have hf := (C65_window s i e a ha).2.kh
  generalize (step x s (.cbor i .reset) e).1 = s1 at hf hg
  obtain ⟨q', g', rfl, hg', hb⟩ := ga_resp x j hg
  cases hg'
  obtain ⟨d, f1, r1, hst, _, _, h4, _, _, _, r', hd, _⟩ := hb.done
  have hf1 : rdCert (·.kh) f1 = some i.rndKh := by
    unfold rdCert at hf ⊢
    rw [hst.cert]
    exact hf
  rw [hd.cid]
  by_cases hal : r1.ga.req.allow = []
  · obtain ⟨recs, kh, _, _, h5, h6, h7, _⟩ := hd.chosen.found hal
    rw [hf1] at h5
    cases h5
    exact ⟨h7, d.cid, h6, rfl, rfl⟩
  · obtain ⟨_, _, c, hc, _⟩ := hd.chosen.named hal
    obtain ⟨kh, h5, h6, h7⟩ := hc.auth
    rw [hf1] at h5
    cases h5
    exact ⟨h7, c, h6, hc.nonce.symm, hc.rpE.trans hc.rp.symm⟩

/-! ### C74 -/

/-- The PIN in a padded block of 64 bytes: up to the last byte that is not zero. -/
def Unpads (pin block : Bytes) : Prop :=
  ∃ n, pin.length + n = 64 ∧ (∀ k, k < 64 → block.getD k 0 = (pin ++ List.replicate n 0).getD k 0) ∧ pin.getLast? ≠ some 0

/-- What the applet keeps of a PIN: the first 16 bytes of its hash; and it has eight tries. -/
structure NewPin (x : Ext) (pin : Bytes) (f : Flash) : Prop where
  hash : rdCert (·.pin) f = some ((x.sha pin).take 16)
  tries : f.tries = 8

theorem lastNonZero_le (b : Bytes) (n : Nat) : lastNonZero b n ≤ n := by
  induction n with
  | zero => exact Nat.le_refl _
  | succ n ih =>
    unfold lastNonZero
    split
    · exact Nat.le_succ_of_le ih
    · exact Nat.le_refl _

theorem lastNonZero_above (b : Bytes) (n k : Nat) (h : lastNonZero b n < k) (hk : k ≤ n) : b.getD k 0 = 0 := by
  induction n with
  | zero => omega
  | succ n ih =>
    unfold lastNonZero at h
    split at h
    · rename_i h0
      rcases Nat.lt_or_ge n k with h1 | h1
      · have : k = n + 1 := by omega
        rw [this]
        simpa using h0
      · exact ih h h1
    · omega

theorem lastNonZero_here (b : Bytes) (n : Nat) (h : 0 < lastNonZero b n) : b.getD (lastNonZero b n) 0 ≠ 0 := by
  induction n with
  | zero => cases h
  | succ n ih =>
    unfold lastNonZero at h ⊢
    split
    · rename_i h0
      rw [if_pos h0] at h
      exact ih h
    · rename_i h0
      simpa using h0

theorem unpads {b : Bytes} (h : 3 ≤ lastNonZero b 63) :
    Unpads (b.take (lastNonZero b 63 + 1)) b ∧ (b.take (lastNonZero b 63 + 1)).length = lastNonZero b 63 + 1 := by
  have h1 := lastNonZero_le b 63
  have h2 := lastNonZero_here b 63 (by omega)
  have hl : lastNonZero b 63 < b.length := by
    refine Nat.lt_of_not_le fun hn => h2 ?_
    rw [List.getD_eq_getElem?_getD, List.getElem?_eq_none hn]
    rfl
  have hlen : (b.take (lastNonZero b 63 + 1)).length = lastNonZero b 63 + 1 := by
    rw [List.length_take]
    omega
  refine ⟨⟨63 - lastNonZero b 63, by omega, ?_, ?_⟩, hlen⟩
  · intro k hk
    rcases Nat.lt_or_ge (lastNonZero b 63) k with h3 | h3
    · rw [lastNonZero_above b 63 k h3 (by omega), List.getD_eq_getElem?_getD,
        List.getElem?_append_right (by omega), List.getElem?_replicate]
      split <;> rfl
    · rw [List.getD_eq_getElem?_getD, List.getD_eq_getElem?_getD, List.getElem?_append_left (by omega),
        List.getElem?_take_of_lt (by omega)]
  · rw [List.getLast?_eq_getElem?, hlen, List.getElem?_take_of_lt (by omega)]
    intro h4
    apply h2
    rw [List.getD_eq_getElem?_getD]
    simp at h4
    rw [h4]
    rfl

/-- The new PIN of a request, as it is deciphered. -/
def newPinBlock (x : Ext) (ka : Nat) (q : CpReq) : Option Bytes :=
  (decapsulate x ka q.key q.proto).bind fun z => decrypt x z (q.newPinEnc.take (encSize q.proto)) q.proto

theorem wp_storeNewPin {A : Fault → Prop} (b : Bytes) (f : Flash) (r : Ram) :
    wp A (storeNewPin x b) (fun _ f' _ => ∃ pin, Unpads pin b ∧ 4 ≤ pin.length ∧ pin.length ≤ 63 ∧ NewPin x pin f')
      (fun _ _ _ => True) (fun _ _ => True) f r := by
  unfold storeNewPin
  wzeta
  apply wp_bind
  apply wp_failIf
  · intro _; trivial
  intro h
  simp only [Bool.or_eq_false_iff, decide_eq_false_iff_not] at h
  have hu := unpads (b := b) (by omega)
  unfold setPin setPinRetries
  apply wp_bind
  apply wp_wrOr
  · intro g hg
    apply wp_wrOr
    · intro g' hg'
      refine ⟨_, hu.1, by omega, by omega, ?_⟩
      unfold updCert at hg hg'
      cases hc : f.cert with
      | none => rw [hc] at hg; cases hg
      | some c =>
        rw [hc] at hg
        cases hg
        cases hg'
        exact ⟨rfl, rfl⟩
    all_goals (intros; trivial)
  all_goals (intros; trivial)

/-- A setPIN or changePIN that is answered with success has stored the new PIN, of 4 to 63 bytes, and gives it
eight tries.  Missing: the same when the command is interrupted between the two writes. -/
theorem C74_partial (s : St) (i : In) (q : CpReq) (hq : q.sub = 3 ∨ q.sub = 4) (env : Env) (a : Resp)
    (h : (step x s (.cbor i (.cp (.ok q))) env).2 = .resp a) :
    ∃ b pin, newPinBlock x s.ram.ka q = some b ∧ Unpads pin b ∧ 4 ≤ pin.length ∧ pin.length ≤ 63 ∧
      NewPin x pin (step x s (.cbor i (.cp (.ok q))) env).1.flash := by
  have := resp_of x i (s := s) (q := .cp (.ok q)) (Q := fun _ f' _ =>
    ∃ b pin, newPinBlock x s.ram.ka q = some b ∧ Unpads pin b ∧ 4 ≤ pin.length ∧ pin.length ≤ 63 ∧ NewPin x pin f') ?_ h
  · obtain ⟨_, hh, _⟩ := this
    exact hh
  · show wp _ (clientPin x i (.ok q)) _ _ _ _ _
    have hrest : ∀ z f r, decapsulate x s.ram.ka q.key q.proto = some z →
        wp (fun _ => True) (do
          let plain ← decryptOr x z (q.newPinEnc.take (encSize q.proto)) q.proto
          storeNewPin x plain
          return .empty : M Resp) (fun _ f' _ => ∃ b pin, newPinBlock x s.ram.ka q = some b ∧ Unpads pin b ∧
            4 ≤ pin.length ∧ pin.length ≤ 63 ∧ NewPin x pin f') (fun _ _ _ => True) (fun _ _ => True) f r := by
      intro z f r hz
      apply wp_bind
      unfold decryptOr
      cases hd : decrypt x z (q.newPinEnc.take (encSize q.proto)) q.proto with
      | none => exact wp_fail trivial
      | some b =>
        apply wp_pure
        apply wp_bind
        refine wp_mono (wp_storeNewPin b f r) ?_ (fun _ _ _ _ => trivial) (fun _ _ _ => trivial)
        rintro _ f' r' ⟨pin, h1, h2, h3, h4⟩
        apply wp_pure
        refine ⟨b, pin, ?_, h1, h2, h3, h4⟩
        unfold newPinBlock
        rw [hz]
        exact hd
    have hka : (aged i s.ram).ka = s.ram.ka := rfl
    unfold clientPin
    dsimp only
    rcases hq with hq | hq
    · rw [if_neg (by rw [hq]; decide), if_neg (by rw [hq]; decide), if_pos (by rw [hq]; decide)]
      unfold cpSetPin shared
      apply wp_bind
      apply wp_hasPin
      · intro b _ _
        apply wp_bind
        apply wp_failIf
        · intro _; trivial
        intro _
        apply wp_bind
        apply wp_bind
        apply wp_get
        cases hz : decapsulate x (aged i s.ram).ka q.key q.proto with
        | none => exact wp_fail trivial
        | some z =>
          apply wp_pure
          apply wp_bind
          apply wp_failIf
          · intro _; trivial
          intro _
          exact hrest z _ _ (hka ▸ hz)
      · intro _; trivial
    · rw [if_neg (by rw [hq]; decide), if_neg (by rw [hq]; decide), if_neg (by rw [hq]; decide), if_pos (by rw [hq]; decide)]
      unfold cpChangePin shared
      apply wp_bind
      apply wp_pinGate
      · intro k _ _ _
        apply wp_bind
        apply wp_bind
        apply wp_get
        cases hz : decapsulate x (aged i s.ram).ka q.key q.proto with
        | none => exact wp_fail trivial
        | some z =>
          apply wp_pure
          apply wp_bind
          apply wp_failIf
          · intro _; trivial
          intro _
          apply wp_bind
          refine wp_mono (wp_true _) ?_ (fun _ _ _ _ => trivial) (fun _ _ _ => trivial)
          intro _ f' r' _
          exact hrest z _ _ (hka ▸ hz)
      · intro _; trivial
      · trivial

theorem wp_ok_wrOr {upd : Flash → Option Flash} {e : Err} {f g : Flash} {r : Ram} {Q : Unit → Flash → Ram → Prop}
    {E : Err → Flash → Ram → Prop} {X : Flash → Ram → Prop}
    (h : upd f = some g) (hQ : Q () g r) : wp allOk (Cmd.wrOr upd e : M Unit) Q E X f r := by
  apply wp_wrOr
  · intro b hb
    rw [h] at hb
    cases hb
    exact hQ
  · intro hn; rw [h] at hn; cases hn
  · intro hn; cases hn
  · intro hn; cases hn

/-- The right PIN gives a token: whenever the device has a PIN with tries left, three wrong guesses have not been
made since power-on, and the request presents the hash of the PIN. -/
theorem C74_right_pin_gives_token (s : St) (i : In) (q : CpReq) (hq : q.sub = 5 ∨ q.sub = 9) (env : Env) (he : ∀ n, env n = .ok)
    (h : Bytes) (hp : rdCert (·.pin) s.flash = some h) (hl : h.length = 16) (ht : 0 < s.flash.tries) (hc : s.ram.consec ≠ 0)
    (hg : presented x s.ram.ka q = some h) :
    ∃ t, (step x s (.cbor i (.cp (.ok q))) env).2 = .resp (.token t) := by
  refine cbor_wp (s := s) (i := i) (q := .cp (.ok q)) (env := env) (P := fun p : St × Out => ∃ t, p.2 = .resp (.token t))
    (A := allOk) he (Q := fun a _ _ => ∃ t, a = .token t) (E := fun _ _ _ => False) (X := fun _ _ => False) ?_ ?_ ?_ ?_ ?_
  · have hka : (aged i s.ram).ka = s.ram.ka := rfl
    have hco : (aged i s.ram).consec = s.ram.consec := rfl
    rw [← hka] at hg
    rw [← hco] at hc
    generalize aged i s.ram = r at hg hc
    obtain ⟨⟨cert, dc, dm, lb, lbt⟩, r0⟩ := s
    show wp _ (clientPin x i (.ok q)) _ _ _ ⟨cert, dc, dm, lb, lbt⟩ _
    cases cert with
    | none => cases ht
    | some c =>
      obtain ⟨data, key, ctr, pin, pinCtr, kh, h2, sm2⟩ := c
      have hp : pin = some h := hp
      subst hp
      cases pinCtr with
      | none => cases ht
      | some k =>
        have ht : 0 < k.toNat := ht
        have hk : ¬ ((k == 0) = true) := by
          intro hk
          rw [eq_of_beq hk] at ht
          cases ht
        have hc' : ¬ ((r.consec == 0) = true) := fun h => hc (eq_of_beq h)
        unfold presented at hg
        cases hz : decapsulate x r.ka q.key q.proto with
        | none => rw [hz] at hg; cases hg
        | some z =>
          rw [hz] at hg
          cases hd : decrypt x z (q.pinHashEnc.take (hashSize q.proto)) q.proto with
          | none => rw [Option.bind_some, hd] at hg; cases hg
          | some cand =>
            rw [Option.bind_some, hd] at hg
            have hcand : cand.take 16 = h := Option.some.inj hg
            unfold clientPin
            have hs : (q.sub == 5 || q.sub == 9) = true := by
              rcases hq with hq | hq <;> rw [hq] <;> decide
            dsimp only
            rw [if_neg (by rcases hq with hq | hq <;> rw [hq] <;> decide), if_neg (by rcases hq with hq | hq <;> rw [hq] <;> decide),
              if_neg (by rcases hq with hq | hq <;> rw [hq] <;> decide), if_neg (by rcases hq with hq | hq <;> rw [hq] <;> decide), if_pos hs]
            unfold cpGetToken pinGate hasPin pinRetries shared
            apply wp_bind
            apply wp_bind
            apply wp_bind
            apply wp_rdF
            · intro _
              apply wp_pure
              apply wp_bind
              apply wp_failIf
              · intro hn
                cases h with
                | nil => cases hl
                | cons a b => cases hn
              intro _
              apply wp_bind
              refine wp_ok_rdOr (a := k) rfl ?_
              apply wp_bind
              apply wp_failIf
              · intro hn; exact hk hn
              intro _
              apply wp_bind
              apply wp_get
              apply wp_bind
              apply wp_failIf
              · intro hn; exact hc' hn
              intro _
              apply wp_pure
              apply wp_bind
              apply wp_bind
              apply wp_get
              rw [hz]
              apply wp_pure
              apply wp_bind
              unfold pinCompare setPinRetries decryptOr verifyPinHash
              apply wp_bind
              refine wp_ok_wrOr rfl ?_
              apply wp_bind
              rw [hd]
              apply wp_pure
              apply wp_bind
              apply wp_bind
              refine wp_ok_rdOr (a := h) rfl ?_
              wzeta
              rw [if_neg (by omega)]
              apply wp_pure
              apply wp_ite <;> intro hh
              · apply wp_mod
                apply wp_bind
                refine wp_ok_wrOr rfl ?_
                apply wp_bind
                apply wp_mod
                apply wp_bind
                apply wp_get
                apply wp_pure
                exact ⟨_, rfl⟩
              · exfalso
                apply hh
                rw [hcand, List.take_of_length_le (by omega)]
                exact beq_self_eq_true _
            · intro hn; cases hn
            · intro hn; cases hn
  · rintro a f r ⟨t, rfl⟩; exact ⟨t, rfl⟩
  · intro _ _ _ h; exact h.elim
  · intro _ _ _ h; exact h.elim
  · intro _ _ h; exact h.elim

section
open Toy

/-- A device with `pin1`; with the PIN a resident credential and one that is not stored are made, both of which
sign only with the PIN. -/
def enrolling : List (Op × Env) := histN [(21000, 0, getToken pin1 1 none), (21001, 1, mc rpA user1 .yes 3 (some (auth cdh))),
  (22000, 0, getToken pin1 1 none), (22001, 2, mc rpA user2 .no 3 (some (auth cdh)))]
def enrolled : St := (run ext withPin1 enrolling).1
/-- The credential id of the last makeCredential. -/
def lastCid (s : St) (ops : List (Op × Env)) : Bytes :=
  match (run ext s ops).2.getLast? with
  | some (.resp (.mc m)) => m.ad.att.getD []
  | _ => []

/-- The assertion in an answer. -/
def asserted : Out → Option GaResp
  | .resp (.ga g) => some g
  | _ => none

theorem of_asserted {o : Out} {p : GaResp → Prop} [DecidablePred p] (h : (asserted o).any (fun g => decide (p g)) = true) :
    ∃ g, o = .resp (.ga g) ∧ p g := by
  unfold asserted at h
  split at h
  · exact ⟨_, rfl, by simpa using h⟩
  · cases h

/-- The reset is cut after the PIN is removed, and not resumed when the device is powered on; then a new PIN is set. -/
def takeover : List (Op × Env) := [(.cbor (env 5000) .reset, cutAt 6), (.powerOn (env 0), fine), (.cbor (env 1000) (Toy.setPin pin2), fine),
  (.cbor (env 2000) (getToken pin2 2 none), fine)]

/-- A reset that is interrupted is not all or nothing: the resident credentials and the PIN are gone, but the
credential that is not stored is still there, and with a PIN of one's own choice it signs although it was
protected by the old one. -/
theorem C72_refuted : enrolled.flash.pinHash = some (pinHash pin1) ∧ (rdRecs enrolled.flash).map (·.length) = some 1 ∧
    (run ext enrolled (takeover.take 2)).1.flash.pinHash = none ∧ rdRecs (run ext enrolled (takeover.take 2)).1.flash = some [] ∧
    ∃ g, (step ext (run ext enrolled takeover).1
      (.cbor (env 3000) (ga rpA [lastCid withPin1 enrolling] .absent (some (auth cdh)))) fine).2 = .resp (.ga g) ∧
      g.cid = lastCid withPin1 enrolling ∧ Cid.cp g.cid = 3 ∧ g.ad.uv = true := by
  refine ⟨by decide +kernel, by decide +kernel, by decide +kernel, by decide +kernel, ?_⟩
  exact of_asserted (p := fun g => g.cid = lastCid withPin1 enrolling ∧ Cid.cp g.cid = 3 ∧ g.ad.uv = true) (by decide +kernel)

/-- setPIN that is cut between its two writes: there is a PIN, but the right PIN is not accepted, on the next
power-on either. -/
theorem C74_refuted :
    (run ext produced [(.cbor (env 5000) (Toy.setPin pin1), cutAt 2), (.powerOn (env 0), fine)]).1.flash.pinHash = some (pinHash pin1) ∧
    (run ext produced [(.cbor (env 5000) (Toy.setPin pin1), cutAt 2), (.powerOn (env 0), fine)]).1.flash.tries = 0 ∧
    (run ext produced [(.cbor (env 5000) (Toy.setPin pin1), cutAt 2), (.powerOn (env 0), fine),
      (.cbor (env 1000) (getToken pin1 1 none), fine)]).2.getLast? = some (.err Code.unhandled) := by
  decide +kernel

/-- The reset of a device with credentials, in time and too late; setPIN, changePIN and a token for the PIN. -/
example : (step ext enrolled (.cbor (env 10000) .reset) fine).2 = .resp .empty := by decide +kernel
example : (step ext enrolled (.cbor (env 10001) .reset) fine).2 = .err Code.notAllowed := by decide +kernel
example : (step ext enrolled (.adminReset (env 10001)) fine).2 = .done := by decide +kernel
example : (step ext produced (.cbor (env 20000) (Toy.setPin pin1)) fine).2 = .resp .empty := by decide +kernel
example : (step ext enrolled (.cbor (env 23000) (changePin pin1 pin2)) fine).2 = .resp .empty := by decide +kernel
example : newPinBlock ext 0
    { sub := 3, proto := 1, key := [5], pinAuth := [], newPinEnc := padded pin1, pinHashEnc := [], perms := 0, rp := none } = some (padded pin1) := by decide +kernel
example : Unpads pin1 (padded pin1) := ⟨60, by decide, by decide +kernel, by decide⟩
example : rdCert (·.pin) enrolled.flash = some (pinHash pin1) ∧ (pinHash pin1).length = 16 ∧ 0 < enrolled.flash.tries ∧ enrolled.ram.consec ≠ 0 ∧
    presented ext enrolled.ram.ka
      { sub := 9, proto := 1, key := [5], pinAuth := [], newPinEnc := [], pinHashEnc := pinHash pin1, perms := 1, rp := none } = some (pinHash pin1) := by decide +kernel
end

end Verif.Ctap
