import Verif.Spec.PgpSecret
import Verif.Props.PgpSecrets
import Verif.Lemmas.PgpOcc
/-
The OpenPGP applet and the machine of its PINs.
-/
set_option linter.unusedSimpArgs false
namespace Verif.Pgp
open Cmd Verif.Spec.Pgp Verif.KeyFile

variable {x : Ext} {i : In} {f : Flash} {r : Ram} {m : Mach}

/-- The secret of a kind. -/
def secretAt (m : Mach) : Which → Secret
  | .pw1 => m.pw1
  | .pw3 => m.pw3
  | .rc => m.rc

/-- Replace it. -/
def withSecret (m : Mach) (w : Which) (s : Secret) : Mach :=
  match w with
  | .pw1 => { m with pw1 := s }
  | .pw3 => { m with pw3 := s }
  | .rc => { m with rc := s }

/-- The file holds the secret and the number of tries. -/
def Stores (w : Which) (p : Pin.Flash) (s : Secret) : Prop :=
  (w = .rc ∧ s.value = [] ∨ lo' w ≤ s.value.length ∧ s.value.length ≤ 64) ∧
    ∃ c : UInt8, p = some ⟨s.value, some c, some 3⟩ ∧ c.toNat = s.tries

/-- The files are those of the machine. -/
structure Repr (f : Flash) (m : Mach) : Prop where
  pins : ∀ w, Stores w ((partF w).get f) (secretAt m w)
  term : termOf f = some (if m.ended then 1 else 0)

/-- And the variables. -/
structure RamOk (r : Ram) (m : Mach) : Prop where
  pw1 : r.pw1.validated = m.pw1.shown
  pw3 : r.pw3.validated = m.pw3.shown

theorem repr_set {w : Which} {p : Pin.Flash} {s : Secret} (h : Repr f m) (hp : Stores w p s) :
    Repr ((partF w).set p f) (withSecret m w s) := by
  refine ⟨fun v => ?_, ?_⟩
  · cases w <;> cases v <;> first | exact hp | exact h.pins _
  · cases w <;> exact h.term

theorem ram_set {w : Which} {q : Pin.Ram} {s : Secret} (h : RamOk r m) (hq : q.validated = s.shown) :
    RamOk ((partR w).set q r) (withSecret m w s) := by
  cases w
  · exact ⟨hq, h.2⟩
  · exact ⟨h.1, hq⟩
  · exact ⟨h.1, h.2⟩

theorem stores_no_io {w : Which} {p : Pin.Flash} {s : Secret} (h : Stores w p s) : ¬ Pin.Io cutsOnly p := by
  obtain ⟨_, c, rfl, _⟩ := h
  rintro (h | h)
  · exact h rfl
  · rcases h _ rfl with h | h <;> cases h

/-- Showing a value of an admissible length. -/
theorem ver_spec {w : Which} {b : Bytes} {l : UInt8} {p p' : Pin.Flash} {s : Secret} {rc : Pin.Rc} {ctr : Option UInt8}
    {q : Pin.Ram} (hs : Stores w p s) (hl : lo' w ≤ l.toNat ∧ l.toNat ≤ 64)
    (h : Pin.VerEff cutsOnly (pinCfg x w) b l p (rc, ctr) p' q) :
    Stores w p' (s.present (b.take l.toNat)).2 ∧ q.validated = (s.present (b.take l.toNat)).2.shown ∧
    ((s.present (b.take l.toNat)).1 = none ∧ rc = .ok ∧ (∃ c, ctr = some c ∧ c ≠ 0) ∨
      ∃ c, ctr = some c ∧ rc = .authFail ∧ (s.present (b.take l.toNat)).1 = some (if c = 0 then 0x6983 else 0x6982)) := by
  have hs' := hs
  obtain ⟨hv, c, hf, hc⟩ := hs'
  have ht : s.value.take 64 = s.value := List.take_of_length_le (by
    rcases hv with ⟨_, h⟩ | h
    · rw [h]; simp
    · exact h.2)
  cases h with
  | length h => exact absurd (lenOk_iff'.2 hl) h
  | io _ h => exact absurd h (stores_no_io hs)
  | rightIo _ _ _ _ _ _ _ h => exact absurd h (stores_no_io hs)
  | blocked q hq hz =>
    rw [hf] at hq
    cases hq
    cases hz
    have : s.tries = 0 := by rw [← hc]; rfl
    unfold Secret.present
    rw [if_pos this]
    exact ⟨⟨hv, 0, hf, hc⟩, rfl, .inr ⟨0, rfl, rfl, rfl⟩⟩
  | wrong q k hq hk hz _ hm =>
    rw [hf] at hq
    cases hq
    cases hk
    have hm : b.take l.toNat ≠ s.value := by rw [← ht]; exact hm
    have hn : s.tries ≠ 0 := by
      intro e
      rw [e] at hc
      exact hz (UInt8.toNat_inj.mp hc)
    have hk : (c - 1).toNat = s.tries - 1 := by
      rw [UInt8.toNat_sub_of_le _ _ (by rw [UInt8.le_iff_toNat_le, hc]; show 1 ≤ s.tries; omega), hc]; rfl
    unfold Secret.present
    rw [if_neg hn, if_neg hm]
    by_cases h1 : s.tries = 1
    · rw [if_pos h1]
      rw [h1] at hk
      have : c - 1 = 0 := UInt8.toNat_inj.mp hk
      exact ⟨⟨hv, c - 1, rfl, hk⟩, rfl, .inr ⟨_, rfl, rfl, by rw [if_pos this]⟩⟩
    · rw [if_neg h1]
      have : c - 1 ≠ 0 := by
        intro e
        rw [e] at hk
        have hk : 0 = s.tries - 1 := hk
        omega
      exact ⟨⟨hv, c - 1, rfl, hk⟩, rfl, .inr ⟨_, rfl, rfl, by rw [if_neg this]⟩⟩
  | right q k d hq hk hz _ hm hd =>
    rw [hf] at hq
    cases hq
    cases hk
    cases hd
    have hm : b.take l.toNat = s.value := by rw [← ht]; exact hm
    have hn : s.tries ≠ 0 := by
      intro e
      rw [e] at hc
      exact hz (UInt8.toNat_inj.mp hc)
    unfold Secret.present
    rw [if_neg hn, if_pos hm]
    exact ⟨⟨hv, 3, rfl, rfl⟩, rfl, .inl ⟨rfl, rfl, _, rfl, hz⟩⟩

theorem retries_exact {w : Which} {p : Pin.Flash} {s : Secret} (h : Stores w p s) {n : Option Nat}
    (hn : Pin.RetEff cutsOnly p n) : n = some (if s.value = [] then 0 else s.tries) := by
  obtain ⟨hl, c, rfl, hc⟩ := h
  cases hn with
  | empty p hp hd =>
    cases hp
    have hd : s.value = [] := hd
    rw [if_pos hd]
  | io h =>
    rcases h with h | h
    · exact absurd rfl h
    · cases h _ rfl
  | some p k hp hk hd =>
    cases hp
    cases hk
    have : s.value ≠ [] := by
      rcases hd with h | h
      · exact h
      · exact absurd rfl h
    rw [if_neg this, hc]

theorem present_value {s : Secret} {v : Bytes} : (s.present v).2.value = s.value := by
  unfold Secret.present
  repeat' split
  all_goals rfl

/-- A candidate whose length is not admissible. -/
theorem verify_short {ε : Type} {A : Fault → Prop} {cfg : Pin.Cfg} {st b : Bytes} {l : UInt8} {p : Pin.Flash} {q : Pin.Ram}
    {E : ε → Pin.Flash → Pin.Ram → Prop} {X : Pin.Flash → Pin.Ram → Prop} (h : ¬ Pin.lenOk cfg l) :
    wp A (Cmd.lift (Pin.verify cfg st b l) : Cmd Pin.Flash Pin.Ram ε _)
      (fun a p' q' => a = (.lengthInvalid, none) ∧ p' = p ∧ q' = ⟨false⟩) E X p q := by
  unfold Pin.verify
  simp only [lift_bind, lift_pure, Pin.lift_mod, lift_ite]
  apply wp_bind; apply wp_mod
  apply wp_ite <;> intro h1
  · exact wp_pure ⟨rfl, rfl, rfl⟩
  · exact absurd ((Pin.lenOk_iff cfg l).1 (by simpa using h1)) h

theorem update_short {ε : Type} {A : Fault → Prop} {cfg : Pin.Cfg} {b : Bytes} {l : UInt8} {p : Pin.Flash} {q : Pin.Ram}
    {E : ε → Pin.Flash → Pin.Ram → Prop} {X : Pin.Flash → Pin.Ram → Prop} (h : ¬ Pin.lenOk cfg l) :
    wp A (Cmd.lift (Pin.update cfg b l) : Cmd Pin.Flash Pin.Ram ε _)
      (fun a p' q' => a = .lengthInvalid ∧ p' = p ∧ q' = q) E X p q := by
  unfold Pin.update
  simp only [lift_bind, lift_pure, Pin.lift_mod, lift_ite]
  apply wp_ite <;> intro h1
  · exact wp_pure ⟨rfl, rfl, rfl⟩
  · exact absurd ((Pin.lenOk_iff cfg l).1 (by simpa using h1)) h

theorem set_set_F {w : Which} {p q : Pin.Flash} : (partF w).set p ((partF w).set q f) = (partF w).set p f := by
  cases w <;> rfl

/-! ### The commands -/

/-- The answer and what is left are those of the machine. -/
def Does (res : Nat × Mach) (a : Reply) (f' : Flash) (r' : Ram) : Prop :=
  a = .sw res.1 ∧ Repr f' res.2 ∧ RamOk r' res.2

theorem does_of {res : Nat × Mach} {sw : Nat} {m' : Mach} {f' : Flash} {r' : Ram} (e : res = (sw, m')) (h : Repr f' m')
    (hv : RamOk r' m') : Does res (.sw sw) f' r' := by
  rw [e]; exact ⟨rfl, h, hv⟩

theorem len8 {n : Nat} (h : n ≤ 255) : (UInt8.ofNat n).toNat = n := by
  rw [UInt8.toNat_ofNat']
  exact Nat.mod_eq_of_lt (by omega)

theorem withSecret_self {w : Which} : withSecret m w (secretAt m w) = m := by cases w <;> rfl

theorem verify_at {w : Which} {off : Ram → Ram} (h : verifyWhich i.c.p2 = some (w, off)) (h1 : i.c.p1 = 0 ∨ i.c.p1 = 0xFF) :
    w ≠ .rc ∧ m.verify i.c.p1 i.c.p2 i.c.data = (((secretAt m w).verify (lo' w) i.c.p1 i.c.data).1,
      withSecret m w ((secretAt m w).verify (lo' w) i.c.p1 i.c.data).2) := by
  have h1 : ¬(i.c.p1 ≠ 0 ∧ i.c.p1 ≠ 0xFF) := fun h => h1.elim h.1 h.2
  unfold verifyWhich at h
  repeat' split at h
  · next e =>
    cases h
    have e : i.c.p2 = 0x81 := by simpa using e
    exact ⟨by decide, by unfold Mach.verify; rw [if_neg h1, if_pos (.inl e)]; rfl⟩
  · next e =>
    cases h
    have e : i.c.p2 = 0x82 := by simpa using e
    exact ⟨by decide, by unfold Mach.verify; rw [if_neg h1, if_pos (.inr e)]; rfl⟩
  · next e =>
    cases h
    have e : i.c.p2 = 0x83 := by simpa using e
    exact ⟨by decide, by unfold Mach.verify; rw [if_neg h1, e, if_neg (by decide), if_pos rfl]; rfl⟩
  · cases h

theorem verify_exact (hx : x.Ok) (h255 : i.c.data.length ≤ 255) (hm : Repr f m) (ho : RamOk r m) :
    wp cutsOnly (verify x i) (Does (m.verify i.c.p1 i.c.p2 i.c.data)) (Does (m.verify i.c.p1 i.c.p2 i.c.data))
      (fun f' _ => f' = f) f r := by
  unfold verify
  apply wp_ite <;> intro h1
  · exact wp_throw (does_of (by unfold Mach.verify; rw [if_pos (by simpa using h1)]) hm ho)
  have h1 : i.c.p1 = 0 ∨ i.c.p1 = 0xFF := by
    simp at h1
    exact Decidable.or_iff_not_imp_left.mpr h1
  cases hw : verifyWhich i.c.p2 with
  | none =>
    refine wp_throw (does_of (sw := 0x6A86) (m' := m) ?_ hm ho)
    unfold verifyWhich at hw
    unfold Mach.verify
    rw [if_neg (fun h => h1.elim h.1 h.2)]
    repeat' split at hw
    · cases hw
    · cases hw
    · cases hw
    · next a b c =>
      rw [if_neg (by simp at a b; exact fun h => h.elim a b), if_neg (by simpa using c)]
  | some y =>
    obtain ⟨w, off⟩ := y
    obtain ⟨hrc, em⟩ := verify_at (m := m) hw h1
    rw [em]
    have ho : RamOk (off r) m := by
      have := verifyWhich_eq hw
      rw [this.2.2]
      exact ⟨ho.1, ho.2⟩
    simp only []
    apply wp_bind; apply wp_mod
    apply wp_ite <;> intro h2
    · have h2 : i.c.p1 = 0xFF := by simpa using h2
      refine wp_bind (wp_mod (wp_pure (does_of (m' := withSecret m w { secretAt m w with shown := false }) ?_ ?_ (ram_set ho rfl))))
      · unfold Secret.verify; rw [if_pos h2]
      · have := repr_set (w := w) (s := { secretAt m w with shown := false }) hm (hm.pins w)
        rwa [set_get_F] at this
    have h2 : i.c.p1 ≠ 0xFF := by simpa using h2
    apply wp_ite <;> intro h3
    · have h3 : i.c.data = [] := by simpa [Apdu.Capdu.lc] using h3
      apply wp_bind; apply wp_get
      have hv : ((off r).pin w).validated = (secretAt m w).shown := by
        cases w with
        | pw1 => exact ho.1
        | pw3 => exact ho.2
        | rc => exact absurd rfl hrc
      apply wp_ite <;> intro h4
      · rw [hv] at h4
        refine wp_pure (does_of (m' := m) ?_ hm ho)
        unfold Secret.verify; rw [if_neg h2, if_pos h3, if_pos h4, withSecret_self]
      · rw [hv] at h4
        apply wp_bind
        apply wp_onPin Pin.getRetries_wp
        · rintro n p q ⟨h, rfl, rfl⟩
          rw [set_get_F, set_get_R]
          have hn := retries_exact (hm.pins w) h
          have hne : (secretAt m w).value ≠ [] := by
            intro e
            rcases (hm.pins w).1 with h | h
            · exact hrc h.1
            · rw [e] at h
              have := h.1
              cases w <;> simp [lo'] at this
          rw [if_neg hne] at hn
          subst hn
          refine wp_throw (does_of (m' := m) ?_ hm ho)
          unfold Secret.verify; rw [if_neg h2, if_pos h3, if_neg h4, withSecret_self]
        · rintro p q ⟨_, rfl, rfl⟩
          exact set_get_F
    have h3 : i.c.data ≠ [] := by simpa [Apdu.Capdu.lc] using h3
    have hl : (UInt8.ofNat i.c.lc).toNat = i.c.data.length := len8 h255
    apply wp_bind
    by_cases hok : lo' w ≤ i.c.data.length ∧ i.c.data.length ≤ 64
    · have hb : ¬(i.c.data.length < lo' w ∨ 64 < i.c.data.length) := by omega
      apply wp_onPin (Pin.verify_wp (A := cutsOnly) (cfg_ok hx _) (by rw [hl]; exact Nat.le_refl _))
      · rintro ⟨rc, ctr⟩ p q h
        obtain ⟨e1, e2, e3⟩ := ver_spec (hm.pins w) (by rw [hl]; exact hok) h
        rw [hl, List.take_length] at e1 e2 e3
        have hr := repr_set (w := w) hm e1
        have hq := ram_set (w := w) ho e2
        rcases e3 with ⟨e3, rfl, c, rfl, hc⟩ | ⟨c, rfl, rfl, e3⟩
        · have es : (secretAt m w).verify (lo' w) i.c.p1 i.c.data = (0x9000, ((secretAt m w).present i.c.data).2) := by
            unfold Secret.verify; rw [if_neg h2, if_neg h3, if_neg hb]
            revert e3
            generalize (secretAt m w).present i.c.data = y
            rintro e3
            obtain ⟨a, b⟩ := y
            cases e3
            rfl
          rw [es]
          show wp cutsOnly (if c == 0 then throw _ else _) _ _ _ _ _
          rw [if_neg (by simpa using hc)]
          wps
          all_goals first
            | exact does_of rfl hr ⟨hq.1, hq.2⟩
            | (next h => cases h)
        · have es : (secretAt m w).verify (lo' w) i.c.p1 i.c.data =
              (if c = 0 then 0x6983 else 0x6982, ((secretAt m w).present i.c.data).2) := by
            unfold Secret.verify; rw [if_neg h2, if_neg h3, if_neg hb]
            revert e3
            generalize (secretAt m w).present i.c.data = y
            rintro e3
            obtain ⟨a, b⟩ := y
            cases e3
            rfl
          rw [es]
          show wp cutsOnly (if c == 0 then throw _ else _) _ _ _ _ _
          by_cases hc : c = 0
          · rw [if_pos (by simpa using hc), if_pos hc]
            exact wp_throw (does_of rfl hr hq)
          · rw [if_neg (by simpa using hc), if_neg hc]
            exact wp_throw (does_of rfl hr hq)
      · rintro p q ⟨_, rfl⟩
        exact set_get_F
    · have hb : i.c.data.length < lo' w ∨ 64 < i.c.data.length := by omega
      apply wp_onPin (verify_short (A := cutsOnly) (X := fun _ _ => False) (by rw [lenOk_iff', hl]; exact hok))
      · rintro _ p q ⟨rfl, rfl, rfl⟩
        rw [set_get_F]
        refine wp_throw (does_of (m' := withSecret m w { secretAt m w with shown := false }) ?_ ?_ (ram_set ho rfl))
        · unfold Secret.verify; rw [if_neg h2, if_neg h3, if_pos hb]
        · have := repr_set (w := w) (s := { secretAt m w with shown := false }) hm (hm.pins w)
          rwa [set_get_F] at this
      · exact fun _ _ h => h.elim

/-! ### Changing -/

theorem rest_exact {w : Which} {n : Nat} {c : UInt8} {v : Bytes} (h255 : i.c.data.length ≤ 255) (hn : n ≤ i.c.data.length)
    (hs : (partF w).get f = some ⟨v, some c, some 3⟩) :
    wp cutsOnly (updateRest x i w (some n))
      (fun _ f' r' => (lo' w ≤ (i.c.data.drop n).length ∧ (i.c.data.drop n).length ≤ 64) ∧
        f' = (partF w).set (some ⟨i.c.data.drop n, some 3, some 3⟩) f ∧ r' = (partR w).set ⟨false⟩ r)
      (fun e f' r' => ¬(lo' w ≤ (i.c.data.drop n).length ∧ (i.c.data.drop n).length ≤ 64) ∧ e = .sw 0x6700 ∧ f' = f ∧ r' = r)
      (fun f' _ => (lo' w ≤ (i.c.data.drop n).length ∧ (i.c.data.drop n).length ≤ 64) ∧
        (f' = f ∨ f' = (partF w).set (some ⟨i.c.data.drop n, some c, some 3⟩) f)) f r := by
  have hl : (UInt8.ofNat (i.c.lc - n)).toNat = (i.c.data.drop n).length := by
    rw [List.length_drop]
    exact len8 (by show i.c.data.length - n ≤ 255; omega)
  have ht : (i.c.data.drop n).take (UInt8.ofNat (i.c.lc - n)).toNat = i.c.data.drop n := by rw [hl, List.take_length]
  unfold updateRest
  simp only []
  rw [if_neg (by show ¬ i.c.data.length < n; omega)]
  apply wp_bind
  by_cases hlen : lo' w ≤ (i.c.data.drop n).length ∧ (i.c.data.drop n).length ≤ 64
  case neg =>
    apply wp_onPin (update_short (A := cutsOnly) (X := fun _ _ => False) (by rw [lenOk_iff', hl]; exact hlen))
    · rintro _ p q ⟨rfl, rfl, rfl⟩
      rw [set_get_F, set_get_R]
      exact wp_throw ⟨hlen, rfl, rfl, rfl⟩
    · exact fun _ _ h => h.elim
  apply wp_onPin (Pin.update_wp (A := cutsOnly))
  · intro rc p q h
    cases h with
    | length h =>
      rw [set_get_F, set_get_R]
      exact wp_throw ⟨fun h' => h (lenOk_iff'.2 (by rwa [hl])), rfl, rfl, rfl⟩
    | io h =>
      rw [hs] at h
      rcases h with h | h
      · exact absurd rfl h
      · rcases h _ rfl with h | h <;> cases h
    | half _ h =>
      rw [hs] at h
      rcases h with h | h
      · exact absurd rfl h
      · rcases h _ rfl with h | h <;> cases h
    | done p d hp hd hl' =>
      rw [hs] at hp
      cases hp
      cases hd
      refine wp_pure ⟨by have := lenOk_iff'.1 hl'; rwa [hl] at this, ?_, rfl⟩
      rw [ht]
  · rintro p q ⟨_, rfl | ⟨h, rfl⟩⟩
    · exact ⟨hlen, .inl set_get_F⟩
    · refine ⟨hlen, .inr ?_⟩
      rw [ht, hs]
      rfl

theorem first_exact {w : Which} (hx : x.Ok) (hj : i.junk ≠ 0) (hm : Repr f m) (ho : RamOk r m)
    (hne : (secretAt m w).value ≠ []) :
    wp cutsOnly (verifyFirst x i w (some (secretAt m w).value.length))
      (fun _ f' r' => i.c.data.length < lo' w ∧ f' = f ∧ r' = (partR w).set ⟨false⟩ r ∨
        lo' w ≤ i.c.data.length ∧ ∃ s p q, (secretAt m w).present (i.c.data.take (secretAt m w).value.length) = (none, s) ∧
          Stores w p s ∧ q.validated = s.shown ∧ f' = (partF w).set p f ∧ r' = (partR w).set q r)
      (fun e f' r' => lo' w ≤ i.c.data.length ∧ ∃ sw s p q,
          (secretAt m w).present (i.c.data.take (secretAt m w).value.length) = (some sw, s) ∧ e = .sw sw ∧
          Stores w p s ∧ q.validated = s.shown ∧ f' = (partF w).set p f ∧ r' = (partR w).set q r)
      (fun f' _ => f' = f) f r := by
  have hv : lo' w ≤ (secretAt m w).value.length ∧ (secretAt m w).value.length ≤ 64 :=
    (hm.pins w).1.resolve_left fun h => hne h.2
  have hl : (UInt8.ofNat (min i.c.lc (secretAt m w).value.length)).toNat = min i.c.data.length (secretAt m w).value.length :=
    len8 (by omega)
  unfold verifyFirst
  simp only []
  apply wp_bind
  by_cases hs : i.c.data.length < lo' w
  · apply wp_onPin (verify_short (A := cutsOnly) (X := fun _ _ => False) (by rw [lenOk_iff', hl]; omega))
    · rintro _ p q ⟨rfl, rfl, rfl⟩
      rw [set_get_F]
      show wp cutsOnly (if i.junk == 0 then throw _ else _) _ _ _ _ _
      rw [if_neg (by simpa using hj)]
      exact wp_pure (.inl ⟨hs, rfl, rfl⟩)
    · exact fun _ _ h => h.elim
  · have hs : lo' w ≤ i.c.data.length := by omega
    have ht : i.c.data.take (min i.c.data.length (secretAt m w).value.length) = i.c.data.take (secretAt m w).value.length := by
      by_cases h : i.c.data.length ≤ (secretAt m w).value.length
      · rw [Nat.min_eq_left h, List.take_length, List.take_of_length_le h]
      · rw [Nat.min_eq_right (by omega)]
    apply wp_onPin (Pin.verify_wp (A := cutsOnly) (cfg_ok hx _) (by rw [hl]; exact Nat.min_le_left _ _))
    · rintro ⟨rc, ctr⟩ p q h
      obtain ⟨e1, e2, e3⟩ := ver_spec (hm.pins w) (by rw [hl]; omega) h
      rw [hl, ht] at e1 e2 e3
      revert e1 e2 e3
      generalize hy : (secretAt m w).present (i.c.data.take (secretAt m w).value.length) = y
      obtain ⟨a, s⟩ := y
      intro e1 e2 e3
      rcases e3 with ⟨e3, rfl, c, rfl, hc⟩ | ⟨c, rfl, rfl, e3⟩
      · cases e3
        show wp cutsOnly (if c == 0 then throw _ else _) _ _ _ _ _
        rw [if_neg (by simpa using hc)]
        exact wp_pure (.inr ⟨hs, s, p, q, rfl, e1, e2, rfl, rfl⟩)
      · cases e3
        show wp cutsOnly (if c == 0 then throw _ else _) _ _ _ _ _
        by_cases hc : c = 0
        · rw [if_pos (by simpa using hc), if_pos hc]
          exact wp_throw ⟨hs, _, s, p, q, rfl, rfl, e1, e2, rfl, rfl⟩
        · rw [if_neg (by simpa using hc), if_neg hc]
          exact wp_throw ⟨hs, _, s, p, q, rfl, rfl, e1, e2, rfl, rfl⟩
    · rintro p q ⟨_, rfl⟩
      exact set_get_F

/-- What the machine does with the old value of one secret and the new one of another. -/
def change2 (m : Mach) (w w' : Which) (d : Bytes) : Nat × Mach :=
  if d.length < lo' w then (0x6700, withSecret m w { secretAt m w with shown := false })
  else match (secretAt m w).present (d.take (secretAt m w).value.length) with
    | (some sw, s) => (sw, withSecret m w s)
    | (none, s) =>
      if (d.drop (secretAt m w).value.length).length < lo' w' ∨ 64 < (d.drop (secretAt m w).value.length).length then
        (0x6700, withSecret m w s)
      else (0x9000, withSecret (withSecret m w s) w'
        ((secretAt (withSecret m w s) w').put (d.drop (secretAt m w).value.length)))

theorem present_ok {s s' : Secret} {v : Bytes} (h : s.present v = (none, s')) : v = s.value ∧ s' = { s with tries := 3, shown := true } := by
  unfold Secret.present at h
  split at h
  · cases h
  split at h
  · next e => cases h; exact ⟨e, rfl⟩
  split at h <;> cases h

theorem change2_exact {w w' : Which} (hx : x.Ok) (hj : i.junk ≠ 0) (h255 : i.c.data.length ≤ 255) (hm : Repr f m)
    (ho : RamOk r m) (hne : (secretAt m w).value ≠ []) (hw : w' ≠ .rc) :
    wp cutsOnly (do
        verifyFirst x i w (some (secretAt m w).value.length)
        updateRest x i w' (some (secretAt m w).value.length)
        return .sw SW.ok : M Reply)
      (Does (change2 m w w' i.c.data)) (Does (change2 m w w' i.c.data))
      (fun f' _ => f' = f ∨ (change2 m w w' i.c.data).1 = 0x9000 ∧
        (Repr f' (withSecret m w { secretAt m w with tries := 3 }) ∨ Repr f' (change2 m w w' i.c.data).2 ∨
          w ≠ w' ∧ Repr f' (withSecret (change2 m w w' i.c.data).2 w'
            { secretAt (change2 m w w' i.c.data).2 w' with tries := (secretAt m w').tries }))) f r := by
  apply wp_bind
  refine wp_mono (first_exact hx hj hm ho hne) ?_ ?_ (fun _ _ h => .inl h)
  · rintro _ f1 r1 (⟨hs, rfl, rfl⟩ | ⟨hs, s, p, q, hp, h1, h2, rfl, rfl⟩)
    · have hv : lo' w ≤ (secretAt m w).value.length := ((hm.pins w).1.resolve_left fun h => hne h.2).1
      have e : change2 m w w' i.c.data = (0x6700, withSecret m w { secretAt m w with shown := false }) := by
        unfold change2; rw [if_pos hs]
      rw [e]
      apply wp_bind
      unfold updateRest
      simp only []
      rw [if_pos (by show i.c.data.length < _; omega)]
      apply wp_bind
      refine wp_throw (does_of rfl ?_ (ram_set ho rfl))
      have := repr_set (w := w) (s := { secretAt m w with shown := false }) hm (hm.pins w)
      rwa [set_get_F] at this
    · have hr := repr_set (w := w) hm h1
      have hq := ram_set (w := w) ho h2
      obtain ⟨hd, hs'⟩ := present_ok hp
      have hn : (secretAt m w).value.length ≤ i.c.data.length := by
        have := congrArg List.length hd
        rw [List.length_take] at this
        omega
      obtain ⟨_, c, hc, hct⟩ := hr.pins w'
      apply wp_bind
      have e : change2 m w w' i.c.data =
          if (i.c.data.drop (secretAt m w).value.length).length < lo' w' ∨
              64 < (i.c.data.drop (secretAt m w).value.length).length then (0x6700, withSecret m w s)
          else (0x9000, withSecret (withSecret m w s) w'
            ((secretAt (withSecret m w s) w').put (i.c.data.drop (secretAt m w).value.length))) := by
        unfold change2; rw [if_neg (by omega), hp]
      refine wp_mono (rest_exact h255 hn hc) ?_ ?_ ?_
      · rintro _ f' r' ⟨hl, rfl, rfl⟩
        rw [if_neg (by omega)] at e
        rw [e]
        exact wp_pure (does_of rfl (repr_set hr ⟨.inr hl, 3, rfl, rfl⟩) (ram_set hq rfl))
      · rintro _ f' r' ⟨hl, rfl, rfl, rfl⟩
        rw [if_pos (by omega)] at e
        rw [e]
        exact does_of rfl hr hq
      · rintro f' r' ⟨hl, hf⟩
        rw [if_neg (by omega)] at e
        rw [e]
        refine .inr ⟨rfl, ?_⟩
        rcases hf with rfl | rfl
        · subst hs'
          exact .inl (repr_set hm h1)
        · right
          by_cases hww : w = w'
          · subst hww
            left
            refine repr_set hr ⟨.inr hl, c, rfl, ?_⟩
            rw [hct, hs']
            cases w <;> rfl
          · right
            refine ⟨hww, ?_⟩
            refine ⟨fun v => ?_, ?_⟩
            · by_cases hv : v = w'
              · subst hv
                refine ⟨.inr ?_, c, ?_, ?_⟩
                · cases v <;> exact hl
                · cases v <;> rfl
                · rw [hct]
                  cases v <;> cases w <;> first | rfl | exact absurd rfl hww
              · have := hr.pins v
                cases v <;> cases w' <;> first | exact this | exact absurd rfl hv
            · have := hr.term
              cases w' <;> exact this
  · rintro e f' r' ⟨hs, sw, s, p, q, hp, rfl, h1, h2, rfl, rfl⟩
    refine does_of (m' := withSecret m w s) ?_ (repr_set hm h1) (ram_set ho h2)
    unfold change2; rw [if_neg (by omega), hp]

/-- What a failing power supply leaves of a command. -/
def Left (m : Mach) (c : Apdu.Capdu) (f' : Flash) : Prop := ∃ m', m.torn c m' ∧ Repr f' m'

theorem left_self {c : Apdu.Capdu} (hm : Repr f m) : Left m c f := ⟨m, .inl rfl, hm⟩

theorem size_exact {w : Which} {s : Secret} {p : Pin.Flash} {n : Option Nat} (h : Stores w p s)
    (hn : n = p.map (·.data.length) ∨ cutsOnly .fail ∧ n = none) : n = some s.value.length := by
  obtain ⟨_, c, rfl, _⟩ := h
  exact hn.resolve_right fun h => h.1 rfl

theorem value_ne {w : Which} (hw : w ≠ .rc) (hm : Repr f m) : (secretAt m w).value ≠ [] := by
  intro e
  rcases (hm.pins w).1 with h | h
  · exact hw h.1
  · rw [e] at h
    have := h.1
    cases w <;> simp [lo'] at this

theorem change2_pw1 : change2 m .pw1 .pw1 i.c.data = ((m.pw1.change 6 i.c.data).1, { m with pw1 := (m.pw1.change 6 i.c.data).2 }) := by
  unfold change2 Secret.change
  by_cases h : i.c.data.length < 6
  · rw [if_pos (show i.c.data.length < lo' .pw1 from h), if_pos h]; rfl
  rw [if_neg (show ¬ i.c.data.length < lo' .pw1 from h), if_neg h]
  rcases hp : m.pw1.present (i.c.data.take m.pw1.value.length) with ⟨_ | sw, s⟩
  · have hp' : (secretAt m .pw1).present (i.c.data.take (secretAt m .pw1).value.length) = (none, s) := hp
    rw [hp']
    by_cases h' : (i.c.data.drop m.pw1.value.length).length < 6 ∨ 64 < (i.c.data.drop m.pw1.value.length).length
    · simp only [if_pos h']
      exact if_pos h'
    · simp only [if_neg h']
      exact if_neg h'
  · have hp' : (secretAt m .pw1).present (i.c.data.take (secretAt m .pw1).value.length) = (some sw, s) := hp
    rw [hp']
    rfl

theorem change2_pw3 : change2 m .pw3 .pw3 i.c.data = ((m.pw3.change 8 i.c.data).1, { m with pw3 := (m.pw3.change 8 i.c.data).2 }) := by
  unfold change2 Secret.change
  by_cases h : i.c.data.length < 8
  · rw [if_pos (show i.c.data.length < lo' .pw3 from h), if_pos h]; rfl
  rw [if_neg (show ¬ i.c.data.length < lo' .pw3 from h), if_neg h]
  rcases hp : m.pw3.present (i.c.data.take m.pw3.value.length) with ⟨_ | sw, s⟩
  · have hp' : (secretAt m .pw3).present (i.c.data.take (secretAt m .pw3).value.length) = (none, s) := hp
    rw [hp']
    by_cases h' : (i.c.data.drop m.pw3.value.length).length < 8 ∨ 64 < (i.c.data.drop m.pw3.value.length).length
    · simp only [if_pos h']
      exact if_pos h'
    · simp only [if_neg h']
      exact if_neg h'
  · have hp' : (secretAt m .pw3).present (i.c.data.take (secretAt m .pw3).value.length) = (some sw, s) := hp
    rw [hp']
    rfl

theorem command24 (hc : i.c.cla = 0) (he : m.ended = false) (hi : i.c.ins = 0x24) :
    m.command i.c = (some (m.change i.c.p1 i.c.p2 i.c.data).1, (m.change i.c.p1 i.c.p2 i.c.data).2) := by
  unfold Mach.command
  rw [hc, hi, he]
  rfl

theorem command2C (hc : i.c.cla = 0) (he : m.ended = false) (hi : i.c.ins = 0x2C) :
    m.command i.c = (some (m.unblock i.c.p1 i.c.p2 i.c.data).1, (m.unblock i.c.p1 i.c.p2 i.c.data).2) := by
  unfold Mach.command
  rw [hc, hi, he]
  rfl

theorem commandDA (hc : i.c.cla = 0) (he : m.ended = false) (hi : i.c.ins = 0xDA) (h1 : i.c.p1 = 0) (h2 : i.c.p2 = 0xD3) :
    m.command i.c = (some (m.putRc i.c.data).1, (m.putRc i.c.data).2) := by
  unfold Mach.command
  rw [hc, hi, he, h1, h2]
  rfl

theorem change_exact (hx : x.Ok) (hj : i.junk ≠ 0) (h255 : i.c.data.length ≤ 255) (hc : i.c.cla = 0) (hi : i.c.ins = 0x24)
    (he : m.ended = false) (hm : Repr f m) (ho : RamOk r m) :
    wp cutsOnly (changeRef x i) (Does (m.change i.c.p1 i.c.p2 i.c.data)) (Does (m.change i.c.p1 i.c.p2 i.c.data))
      (fun f' _ => Left m i.c f') f r := by
  unfold changeRef
  apply wp_ite <;> intro h1
  · exact wp_throw (does_of (by unfold Mach.change; rw [if_pos (by simpa using h1)]) hm ho)
  have h1 : ¬ i.c.p1 ≠ 0 := by simpa using h1
  apply wp_ite <;> intro h2
  · have h2 : i.c.p2 = 0x81 := by simpa using h2
    have e : m.change i.c.p1 i.c.p2 i.c.data = change2 m .pw1 .pw1 i.c.data := by
      rw [change2_pw1]; unfold Mach.change; rw [if_neg h1, if_pos h2]
    apply wp_bind; apply wp_mod
    apply wp_bind
    apply wp_onPin (Pin.rdSize_wp (A := cutsOnly))
    · rintro n p q ⟨hs, rfl, rfl⟩
      rw [set_get_F, set_get_R]
      have := size_exact (hm.pins .pw1) hs
      subst this
      rw [e]
      refine wp_mono (change2_exact (w := .pw1) (w' := .pw1) hx hj h255 hm (r := { r with m81 := false, m82 := false }) ⟨ho.1, ho.2⟩
        (value_ne (by decide) hm) (by decide)) (fun _ _ _ h => h) (fun _ _ _ h => h) ?_
      rintro f' r' (rfl | ⟨h9, h⟩)
      · exact left_self hm
      · have ok : (m.command i.c).1 = some 0x9000 := by rw [command24 hc he hi, e, h9]
        rcases h with h | h | h
        · exact ⟨_, .inr (.inr (.inl ⟨hc, hi, h2, ok, rfl⟩)), h⟩
        · exact ⟨_, .inr (.inl rfl), by rw [command24 hc he hi, e]; exact h⟩
        · exact absurd rfl h.1
    · rintro p q ⟨h, rfl, rfl⟩
      rw [set_get_F]
      exact left_self hm
  · have h2 : i.c.p2 ≠ 0x81 := by simpa using h2
    apply wp_ite <;> intro h3
    · have h3 : i.c.p2 = 0x83 := by simpa using h3
      have e : m.change i.c.p1 i.c.p2 i.c.data = change2 m .pw3 .pw3 i.c.data := by
        rw [change2_pw3]; unfold Mach.change; rw [if_neg h1, if_neg h2, if_pos h3]
      apply wp_bind
      apply wp_onPin (Pin.rdSize_wp (A := cutsOnly))
      · rintro n p q ⟨hs, rfl, rfl⟩
        rw [set_get_F, set_get_R]
        have := size_exact (hm.pins .pw3) hs
        subst this
        rw [e]
        refine wp_mono (change2_exact (w := .pw3) (w' := .pw3) hx hj h255 hm ho
          (value_ne (by decide) hm) (by decide)) (fun _ _ _ h => h) (fun _ _ _ h => h) ?_
        rintro f' r' (rfl | ⟨h9, h⟩)
        · exact left_self hm
        · have ok : (m.command i.c).1 = some 0x9000 := by rw [command24 hc he hi, e, h9]
          rcases h with h | h | h
          · exact ⟨_, .inr (.inr (.inr (.inl ⟨hc, hi, h3, ok, rfl⟩))), h⟩
          · exact ⟨_, .inr (.inl rfl), by rw [command24 hc he hi, e]; exact h⟩
          · exact absurd rfl h.1
      · rintro p q ⟨h, rfl, rfl⟩
        rw [set_get_F]
        exact left_self hm
    · have h3 : i.c.p2 ≠ 0x83 := by simpa using h3
      exact wp_throw (does_of (by unfold Mach.change; rw [if_neg h1, if_neg h2, if_neg h3]) hm ho)

theorem change2_rc (hne : m.rc.value ≠ []) (h1 : i.c.p1 = 0) (h2 : i.c.p2 = 0x81) :
    m.unblock i.c.p1 i.c.p2 i.c.data = change2 m .rc .pw1 i.c.data := by
  unfold change2 Mach.unblock
  rw [if_neg (by rw [h1, h2]; decide), if_pos h1, if_neg hne]
  by_cases h : i.c.data.length < 8
  · rw [if_pos (show i.c.data.length < lo' .rc from h), if_pos h]; rfl
  rw [if_neg (show ¬ i.c.data.length < lo' .rc from h), if_neg h]
  rcases hp : m.rc.present (i.c.data.take m.rc.value.length) with ⟨_ | sw, s⟩
  · have hp' : (secretAt m .rc).present (i.c.data.take (secretAt m .rc).value.length) = (none, s) := hp
    rw [hp']
    by_cases h' : (i.c.data.drop m.rc.value.length).length < 6 ∨ 64 < (i.c.data.drop m.rc.value.length).length
    · simp only [if_pos h']
      exact (if_pos h').symm
    · simp only [if_neg h']
      exact (if_neg h').symm
  · have hp' : (secretAt m .rc).present (i.c.data.take (secretAt m .rc).value.length) = (some sw, s) := hp
    rw [hp']
    rfl

theorem unblock_exact (hx : x.Ok) (hj : i.junk ≠ 0) (h255 : i.c.data.length ≤ 255) (hc : i.c.cla = 0) (hi : i.c.ins = 0x2C)
    (he : m.ended = false) (hm : Repr f m) (ho : RamOk r m) :
    wp cutsOnly (resetRetry x i) (Does (m.unblock i.c.p1 i.c.p2 i.c.data)) (Does (m.unblock i.c.p1 i.c.p2 i.c.data))
      (fun f' _ => Left m i.c f') f r := by
  unfold resetRetry
  apply wp_ite <;> intro h1
  · exact wp_throw (does_of (by unfold Mach.unblock; rw [if_pos (by simpa using h1)]) hm ho)
  have h1 : ¬(i.c.p1 ≠ 0 ∧ i.c.p1 ≠ 2 ∨ i.c.p2 ≠ 0x81) := by simpa using h1
  have hp2 : i.c.p2 = 0x81 := Decidable.not_not.mp fun h => h1 (.inr h)
  apply wp_ite <;> intro h2
  · have h2 : i.c.p1 = 0 := by simpa using h2
    apply wp_bind
    apply wp_onPin (Pin.rdSize_wp (A := cutsOnly))
    · rintro n p q ⟨hs, rfl, rfl⟩
      rw [set_get_F, set_get_R]
      have := size_exact (hm.pins .rc) hs
      subst this
      apply wp_ite <;> intro h3
      · have h3 : m.rc.value = [] := by simpa [secretAt] using h3
        exact wp_throw (does_of (by unfold Mach.unblock; rw [if_neg h1, if_pos h2, if_pos h3]) hm ho)
      have h3 : m.rc.value ≠ [] := by simpa [secretAt] using h3
      have e := change2_rc (i := i) h3 h2 hp2
      rw [e]
      refine wp_mono (change2_exact (w := .rc) (w' := .pw1) hx hj h255 hm ho h3 (by decide))
        (fun _ _ _ h => h) (fun _ _ _ h => h) ?_
      rintro f' r' (rfl | ⟨h9, h⟩)
      · exact left_self hm
      · have ok : (m.command i.c).1 = some 0x9000 := by rw [command2C hc he hi, e, h9]
        rcases h with h | h | ⟨_, h⟩
        · exact ⟨_, .inr (.inr (.inr (.inr (.inl ⟨hc, hi, h2, ok, rfl⟩)))), h⟩
        · exact ⟨_, .inr (.inl rfl), by rw [command2C hc he hi, e]; exact h⟩
        · exact ⟨_, .inr (.inr (.inr (.inr (.inr (.inl ⟨hc, hi, ok, rfl⟩))))), by rw [command2C hc he hi, e]; exact h⟩
    · rintro p q ⟨h, rfl, rfl⟩
      rw [set_get_F]
      exact left_self hm
  · have h2 : i.c.p1 ≠ 0 := by simpa using h2
    apply wp_bind
    apply needAdmin_wp
    · intro hv
      have nv : ¬ m.pw3.shown = false := by rw [← ho.2, hv]; decide
      obtain ⟨_, c, hs, hn⟩ := hm.pins .pw1
      apply wp_bind
      refine wp_mono (rest_exact (w := .pw1) (n := 0) h255 (by omega) hs) ?_ ?_ ?_
      · rintro _ f' r' ⟨hl, rfl, rfl⟩
        rw [List.drop_zero] at hl ⊢
        refine wp_pure (does_of (m' := withSecret m .pw1 (m.pw1.put i.c.data)) ?_ (repr_set hm ⟨.inr hl, 3, rfl, rfl⟩) (ram_set ho rfl))
        have hl : ¬(i.c.data.length < 6 ∨ 64 < i.c.data.length) := by
          have : lo' .pw1 = 6 := rfl
          omega
        unfold Mach.unblock; rw [if_neg h1, if_neg h2, if_neg nv, if_neg hl]; rfl
      · rintro _ f' r' ⟨hl, rfl, rfl, rfl⟩
        rw [List.drop_zero] at hl
        have hl : i.c.data.length < 6 ∨ 64 < i.c.data.length := by
          have : lo' .pw1 = 6 := rfl
          omega
        exact does_of (by unfold Mach.unblock; rw [if_neg h1, if_neg h2, if_neg nv, if_pos hl]) hm ho
      · rintro f' r' ⟨hl, rfl | rfl⟩
        · exact left_self hm
        · rw [List.drop_zero] at hl ⊢
          have hl' : ¬(i.c.data.length < 6 ∨ 64 < i.c.data.length) := by
            have : lo' .pw1 = 6 := rfl
            omega
          have e : m.unblock i.c.p1 i.c.p2 i.c.data = (0x9000, withSecret m .pw1 (m.pw1.put i.c.data)) := by
            unfold Mach.unblock; rw [if_neg h1, if_neg h2, if_neg nv, if_neg hl']; rfl
          refine ⟨_, .inr (.inr (.inr (.inr (.inr (.inl ⟨hc, hi, ?_, rfl⟩))))), ?_⟩
          · rw [command2C hc he hi, e]
          · rw [command2C hc he hi, e]
            show Repr _ (withSecret m .pw1 { (m.pw1.put i.c.data) with tries := m.pw1.tries })
            exact repr_set (w := .pw1) hm ⟨.inr hl, c, rfl, hn⟩
    · intro hv
      rw [ho.2] at hv
      exact does_of (by unfold Mach.unblock; rw [if_neg h1, if_neg h2, if_pos hv]) hm ho

/-! ### The resetting code -/

theorem putRc_exact (hc : i.c.cla = 0) (hi : i.c.ins = 0xDA) (hp1 : i.c.p1 = 0) (hp2 : i.c.p2 = 0xD3)
    (he : m.ended = false) (hm : Repr f m) (ho : RamOk r m) (hv : m.pw3.shown = true) :
    wp cutsOnly (putRc x i.c) (Does (m.putRc i.c.data)) (Does (m.putRc i.c.data)) (fun f' _ => Left m i.c f') f r := by
  have hv' : ¬ m.pw3.shown = false := by rw [hv]; decide
  unfold putRc
  apply wp_ite <;> intro h1
  · refine wp_throw (does_of (m' := m) ?_ hm ho)
    have h1 : 0 < i.c.lc ∧ i.c.lc < 8 ∨ 64 < i.c.lc := by simpa using h1
    have h1 : 0 < i.c.data.length ∧ i.c.data.length < 8 ∨ 64 < i.c.data.length := h1
    unfold Mach.putRc; rw [if_neg hv', if_pos h1]
  have h1 : ¬(0 < i.c.data.length ∧ i.c.data.length < 8 ∨ 64 < i.c.data.length) := by
    show ¬(0 < i.c.lc ∧ i.c.lc < 8 ∨ 64 < i.c.lc)
    simpa using h1
  have e : m.putRc i.c.data = (0x9000, withSecret m .rc (m.rc.put i.c.data)) := by
    unfold Mach.putRc; rw [if_neg hv', if_neg h1]; rfl
  obtain ⟨_, c, hs, hn⟩ := hm.pins .rc
  have hl : i.c.data = [] ∨ lo' .rc ≤ i.c.data.length ∧ i.c.data.length ≤ 64 := by
    rcases Nat.eq_zero_or_pos i.c.data.length with h | h
    · exact .inl (List.length_eq_zero_iff.mp h)
    · right
      have : lo' .rc = 8 := rfl
      omega
  have no : ¬ Pin.Io cutsOnly ((partF .rc).get f) := stores_no_io (hm.pins .rc)
  have half : Left m i.c ((partF .rc).set (some ⟨i.c.data, some c, some 3⟩) f) := by
    refine ⟨_, .inr (.inr (.inr (.inr (.inr (.inr ⟨hc, hi, ?_, rfl⟩))))), ?_⟩
    · rw [commandDA hc he hi hp1 hp2, e]
    · rw [commandDA hc he hi hp1 hp2, e]
      show Repr _ (withSecret m .rc { (m.rc.put i.c.data) with tries := m.rc.tries })
      exact repr_set (w := .rc) hm
        ⟨hl.imp_left fun h => ⟨rfl, h⟩, c, rfl, hn⟩
  apply wp_ite <;> intro h2
  · have h2 : i.c.data = [] := by simpa [Apdu.Capdu.lc] using h2
    apply wp_bind
    apply wp_onPin (Pin.clear_wp (A := cutsOnly))
    · rintro rc p q ⟨h, rfl⟩
      rw [set_get_R]
      cases h with
      | io h => exact absurd h no
      | done p d hp hd =>
        rw [hs] at hp
        cases hp
        cases hd
        refine wp_pure (does_of e ?_ ⟨ho.1, ho.2⟩)
        · rw [h2]
          exact repr_set hm ⟨.inl ⟨rfl, rfl⟩, 3, rfl, rfl⟩
    · rintro p q ⟨_, rfl, rfl | rfl⟩
      · rw [set_get_F]; exact left_self hm
      · rw [hs]
        rw [h2] at half
        exact half
  · have h2 : i.c.data ≠ [] := by simpa [Apdu.Capdu.lc] using h2
    have hl := hl.resolve_left h2
    have h8 : (UInt8.ofNat i.c.lc).toNat = i.c.data.length := len8 (by show i.c.data.length ≤ 255; omega)
    apply wp_bind
    apply wp_onPin (Pin.update_wp (A := cutsOnly))
    · rintro rc p q h
      cases h with
      | length h => exact absurd (lenOk_iff'.2 (by rw [h8]; exact hl)) h
      | io h => exact absurd h no
      | half _ h => exact absurd h no
      | done p d hp hd hl' =>
        rw [hs] at hp
        cases hp
        cases hd
        rw [h8, List.take_length]
        exact wp_pure (does_of e (repr_set hm ⟨.inr hl, 3, rfl, rfl⟩) (ram_set ho rfl))
    · rintro p q ⟨_, rfl | ⟨_, rfl⟩⟩
      · rw [set_get_F]; exact left_self hm
      · rw [hs, h8, List.take_length]
        exact half

/-! ### Termination -/

theorem terminate_exact (hm : Repr f m) (ho : RamOk r m) :
    wp cutsOnly (terminate i.c) (Does (m.terminate i.c.p1 i.c.p2)) (Does (m.terminate i.c.p1 i.c.p2))
      (fun f' _ => f' = f) f r := by
  unfold terminate
  apply wp_ite <;> intro h1
  · exact wp_throw (does_of (by unfold Mach.terminate; rw [if_pos (by simpa [← Decidable.not_and_iff_not_or_not] using h1)]) hm ho)
  have h1 : ¬(i.c.p1 ≠ 0 ∨ i.c.p2 ≠ 0) := by simpa using h1
  apply wp_bind
  apply wp_onPin Pin.getRetries_wp
  · rintro n p q ⟨h, rfl, rfl⟩
    rw [set_get_F, set_get_R]
    have hn := retries_exact (hm.pins .pw3) h
    rw [if_neg (value_ne (by decide) hm)] at hn
    subst hn
    have fin : ¬(m.pw3.tries ≠ 0 ∧ m.pw3.shown = false) → wp cutsOnly (do
        setData fun d => { d with term := some 1 }
        return .sw SW.ok : M Reply) (Does (m.terminate i.c.p1 i.c.p2)) (Does (m.terminate i.c.p1 i.c.p2))
        (fun f' _ => f' = f) f r := by
      intro hv
      have e : m.terminate i.c.p1 i.c.p2 = (0x9000, { m with ended := true }) := by
        unfold Mach.terminate; rw [if_neg h1, if_neg hv]
      apply wp_bind
      apply setData_wp
      · exact fun d hd => wp_pure (does_of e ⟨fun w => by cases w <;> exact hm.pins _, rfl⟩ ⟨ho.1, ho.2⟩)
      · intro h
        have := hm.term
        unfold termOf at this
        rw [h] at this; cases this
      · exact fun h => absurd rfl h
      · exact fun _ => rfl
    simp only []
    apply wp_ite <;> intro hn
    · have hn : m.pw3.tries ≠ 0 := Nat.pos_iff_ne_zero.mp hn
      apply wp_bind
      refine needAdmin_wp (fun hv => fin ?_) (fun hv => ?_)
      · rw [ho.2] at hv
        rw [hv]; simp
      · rw [ho.2] at hv
        exact does_of (by unfold Mach.terminate; rw [if_neg h1, if_pos ⟨hn, hv⟩]) hm ho
    · have hn : m.pw3.tries = 0 := Nat.eq_zero_of_not_pos hn
      exact fin (by rw [hn]; simp)
  · rintro p q ⟨_, rfl, rfl⟩
    exact set_get_F

theorem factory_repr : Repr factory .new := by
  refine ⟨fun w => ?_, rfl⟩
  cases w
  · exact ⟨.inr ⟨by decide, by decide⟩, 3, rfl, rfl⟩
  · exact ⟨.inr ⟨by decide, by decide⟩, 3, rfl, rfl⟩
  · exact ⟨.inl ⟨rfl, rfl⟩, 3, rfl, rfl⟩

theorem activate_exact {t : Byte} (ht : t = if m.ended then 1 else 0) (hm : Repr f m) (ho : RamOk r m) :
    wp noFault (activate i.c t) (Does (m.activate i.c.p1 i.c.p2)) (Does (m.activate i.c.p1 i.c.p2))
      (fun _ _ => False) f r := by
  unfold activate
  apply wp_ite <;> intro h1
  · have h1 : m.ended = false := by
      cases h : m.ended with
      | false => rfl
      | true => rw [h] at ht; rw [ht] at h1; cases h1
    exact wp_throw (does_of (by unfold Mach.activate; rw [if_pos h1]) hm ho)
  have h1 : ¬ m.ended = false := by
    intro h
    rw [h] at ht
    rw [ht] at h1
    exact h1 rfl
  apply wp_ite <;> intro h2
  · exact wp_throw (does_of (by
      unfold Mach.activate; rw [if_neg h1, if_pos (by simpa [← Decidable.not_and_iff_not_or_not] using h2)]) hm ho)
  have h2 : ¬(i.c.p1 ≠ 0 ∨ i.c.p2 ≠ 0) := by simpa using h2
  have e : m.activate i.c.p1 i.c.p2 = (0x9000, .new) := by
    unfold Mach.activate; rw [if_neg h1, if_neg h2]
  show wp noFault (installOp true) _ _ _ _ _
  refine wp_mono factory_wp ?_ ?_ ?_
  · intro a f' r' h
    generalize ho' : Outcome.done a = o' at h
    cases h with
    | done => cases ho'; exact does_of e factory_repr ⟨rfl, rfl⟩
    | fail h => cases h
    | cut h => cases h
  · intro a f' r' h
    generalize ho' : Outcome.done a = o' at h
    cases h with
    | done => cases ho'; exact does_of e factory_repr ⟨rfl, rfl⟩
    | fail h => cases h
    | cut h => cases h
  · intro f' r' h
    generalize ho' : (Outcome.cut : Outcome Reply) = o' at h
    cases h with
    | done => cases ho'
    | fail h => cases h
    | cut h => cases h

end Verif.Pgp
