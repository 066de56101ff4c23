import Verif.Spec.PivSecret
import Verif.Props.PivPin
import Verif.Lemmas.PivGen
/-
The PIV applet and the machine of its PIN and PUK.
-/
set_option linter.unusedSimpArgs false
namespace Verif.Piv
open Cmd Verif.Spec.Piv Verif.KeyFile

variable {x : Ext} {i : In} {f : Flash} {r : Ram}

/-- The file holds the secret and the number of tries. -/
def Stores (p : Pin.Flash) (s : Bytes) (n : Nat) : Prop :=
  s.length = 8 ∧ ∃ c : UInt8, p = some ⟨s, some c, some 3⟩ ∧ c.toNat = n

/-- The files are those of the machine. -/
structure Repr (f : Flash) (m : Mach) : Prop where
  pin : Stores f.pin m.pin m.pinTries
  puk : Stores f.puk m.puk m.pukTries

theorem not_io {p : Pin.Flash} {s : Bytes} {n : Nat} (h : Stores p s n) : ¬ Pin.Io cutsOnly p := by
  obtain ⟨_, c, rfl, _⟩ := h
  rintro (h | h)
  · exact h rfl
  · rcases h _ rfl with h | h <;> cases h

theorem set_set_F {w : Which} {p q : Pin.Flash} : (partF w).set p ((partF w).set q f) = (partF w).set p f := by
  cases w <;> rfl

/-- Showing a value. -/
theorem chk_spec {w : Which} {d : Bytes} {s : Bytes} {n : Nat} {o : Option Reply} {f' : Flash} {r' : Ram}
    (hs : Stores ((partF w).get f) s n) (h : ChkEff cutsOnly w d f r o f' r') :
    ∃ (c : UInt8), f' = (partF w).set (some ⟨s, some c, some 3⟩) f ∧ r' = (partR w).set ⟨o.isNone⟩ r ∧
      ∃ q : Option Nat, present n s (d.take 8) = (q, c.toNat) ∧ o = q.map .sw := by
  have hs' := hs
  obtain ⟨hl, c, hf, hc⟩ := hs'
  cases h with
  | io h => exact absurd h (not_io hs)
  | rightIo _ h => exact absurd h (not_io hs)
  | blocked q hq hz =>
    rw [hf] at hq
    cases hq
    cases hz
    refine ⟨0, by rw [← hf, set_get_F], rfl, some 0x6983, ?_, rfl⟩
    have : n = 0 := by rw [← hc]; rfl
    rw [this]; rfl
  | wrong q k hq hk hz hm sw hsw =>
    rw [hf] at hq
    cases hq
    cases hk
    have hm : d.take 8 ≠ s := by rwa [show s.take 64 = s from List.take_of_length_le (by rw [hl]; omega)] at hm
    have hn : n ≠ 0 := by
      rintro rfl
      exact hz (UInt8.toNat_inj.mp hc)
    have hk : (c - 1).toNat = n - 1 := by
      rw [UInt8.toNat_sub_of_le _ _ (by rw [UInt8.le_iff_toNat_le, hc]; show 1 ≤ n; omega), hc]; rfl
    refine ⟨c - 1, rfl, rfl, some sw, ?_, rfl⟩
    unfold present
    rw [if_neg hn, if_neg hm, hsw, hk]
    by_cases h1 : c = 1
    · have : n = 1 := by rw [← hc, h1]; rfl
      rw [if_pos h1, if_pos this, this]
    · have : n ≠ 1 := by
        rintro rfl
        exact h1 (UInt8.toNat_inj.mp hc)
      rw [if_neg h1, if_neg this]
  | right hsh q k hq hk =>
    obtain ⟨q', n', hq', hc', hz, _, hm⟩ := hsh
    rw [hf] at hq hq'
    cases hq
    cases hq'
    cases hk
    cases hc'
    have hm : d.take 8 = s := by rwa [show s.take 64 = s from List.take_of_length_le (by rw [hl]; omega)] at hm
    have hn : n ≠ 0 := by
      rintro rfl
      exact hz (UInt8.toNat_inj.mp hc)
    refine ⟨3, rfl, rfl, none, ?_, rfl⟩
    unfold present
    rw [if_neg hn, if_pos hm]; rfl

theorem check_exact {w : Which} {s : Bytes} {n : Nat} (hx : x.Ok) (hl : 8 ≤ i.c.data.length)
    (hs : Stores ((partF w).get f) s n) :
    wp cutsOnly (checkPin x i w)
      (fun _ f' r' => present n s (i.c.data.take 8) = (none, 3) ∧ f' = (partF w).set (some ⟨s, some 3, some 3⟩) f ∧
        r' = (partR w).set ⟨true⟩ r)
      (fun e f' r' => ∃ (c : UInt8) (sw : Nat), present n s (i.c.data.take 8) = (some sw, c.toNat) ∧ e = .sw sw ∧
        f' = (partF w).set (some ⟨s, some c, some 3⟩) f ∧ r' = (partR w).set ⟨false⟩ r)
      (fun f' _ => f' = f) f r := by
  refine wp_mono (check_wp w hx hl) ?_ ?_ (fun _ _ h => h.1)
  · intro _ f' r' h
    obtain ⟨c, rfl, rfl, q, hq, ho⟩ := chk_spec hs h
    cases q with
    | some _ => cases ho
    | none =>
      have hc : c.toNat = 3 := by
        unfold present at hq
        split at hq
        · cases hq
        split at hq
        · exact (congrArg Prod.snd hq).symm
        split at hq <;> cases hq
      have : c = 3 := UInt8.toNat_inj.mp hc
      subst this
      exact ⟨hq, rfl, rfl⟩
  · intro e f' r' h
    obtain ⟨c, rfl, rfl, q, hq, ho⟩ := chk_spec hs h
    cases q with
    | none => cases ho
    | some sw =>
      cases ho
      exact ⟨c, sw, hq, rfl, rfl, rfl⟩

/-- Showing a value and setting another one. -/
theorem vtu_exact {w w' : Which} {s s' : Bytes} {n n' : Nat} (hx : x.Ok) (hl : i.c.data.length = 16)
    (hs : Stores ((partF w).get f) s n) (hs' : Stores ((partF w').get f) s' n') :
    wp cutsOnly (verifyThenUpdate x i w w')
      (fun _ f' r' => present n s (i.c.data.take 8) = (none, 3) ∧
        f' = (partF w').set (some ⟨i.c.data.drop 8, some 3, some 3⟩) ((partF w).set (some ⟨s, some 3, some 3⟩) f) ∧
        r' = (partR w').set ⟨false⟩ ((partR w).set ⟨true⟩ r))
      (fun e f' r' => ∃ (c : UInt8) (sw : Nat), present n s (i.c.data.take 8) = (some sw, c.toNat) ∧ e = .sw sw ∧
        f' = (partF w).set (some ⟨s, some c, some 3⟩) f ∧ r' = (partR w).set ⟨false⟩ r)
      (fun f' _ => f' = f ∨ present n s (i.c.data.take 8) = (none, 3) ∧
        (f' = (partF w).set (some ⟨s, some 3, some 3⟩) f ∨
          ∃ c, (c = 3 ∨ w ≠ w' ∧ c.toNat = n') ∧ f' = (partF w').set (some ⟨i.c.data.drop 8, some c, some 3⟩)
            ((partF w).set (some ⟨s, some 3, some 3⟩) f))) f r := by
  have hd : (i.c.data.drop 8).take 8 = i.c.data.drop 8 := List.take_of_length_le (by simp; omega)
  unfold verifyThenUpdate
  apply wp_bind
  refine wp_mono (check_exact hx (by omega) hs) ?_ ?_ ?_
  · rintro _ f1 r1 ⟨hp, rfl, rfl⟩
    have h1 : ∃ (t : Bytes) (c : UInt8), (partF w').get ((partF w).set (some ⟨s, some 3, some 3⟩) f) =
        some ⟨t, some c, some 3⟩ ∧ (c = 3 ∨ w ≠ w' ∧ c.toNat = n') := by
      by_cases e : w = w'
      · subst e
        exact ⟨s, 3, get_set_F, .inl rfl⟩
      · obtain ⟨_, c, h, hc⟩ := hs'
        refine ⟨s', c, ?_, .inr ⟨e, hc⟩⟩
        cases w <;> cases w' <;> first | exact absurd rfl e | exact h
    obtain ⟨t, c, h1, hc⟩ := h1
    apply wp_bind
    apply wp_onPin (Pin.update_wp (A := cutsOnly) (cfg := pinCfg x) (l := 8))
    · intro rc p q h
      have no : ¬ Pin.Io cutsOnly ((partF w').get ((partF w).set (some ⟨s, some 3, some 3⟩) f)) := by
        rw [h1]
        rintro (h | h)
        · exact h rfl
        · rcases h _ rfl with h | h <;> cases h
      cases h with
      | length h => exact absurd len8 h
      | io h => exact absurd h no
      | half hl h => exact absurd h no
      | done p d hp' hd' =>
        rw [h1] at hp'
        cases hp'
        cases hd'
        refine wp_pure ⟨hp, ?_, rfl⟩
        show (partF w').set (some ⟨(i.c.data.drop 8).take 8, some 3, some 3⟩) _ = _
        rw [hd]
    · rintro p q ⟨_, h⟩
      refine .inr ⟨hp, ?_⟩
      rcases h with rfl | ⟨_, rfl⟩
      · rw [set_get_F]
        exact .inl rfl
      · refine .inr ⟨c, hc, ?_⟩
        show (partF w').set (some (Pin.withData _ ((i.c.data.drop 8).take 8))) _ = _
        rw [hd, h1]
        rfl
  · exact fun _ _ _ h => h
  · exact fun _ _ h => .inl h


/-! ### The commands -/

/-- The answer and what is left are those of the machine. -/
def Does (res : Nat × Mach) (a : Reply) (f' : Flash) (r' : Ram) : Prop :=
  a = .sw res.1 ∧ Repr f' res.2 ∧ r'.pin.validated = res.2.shown

variable {m : Mach}

theorem lc_nil {c : Apdu.Capdu} : c.lc = 0 ↔ c.data = [] := by
  show c.data.length = 0 ↔ _
  exact List.length_eq_zero_iff

theorem repr_pin {c : UInt8} (h : Repr f m) {s : Bytes} (hl : s.length = 8) {b : Bool} :
    Repr ((partF .pin).set (some ⟨s, some c, some 3⟩) f) { m with pin := s, pinTries := c.toNat, shown := b } :=
  ⟨⟨hl, c, rfl, rfl⟩, h.puk⟩

theorem repr_puk {c : UInt8} (h : Repr f m) {s : Bytes} (hl : s.length = 8) {b : Bool} :
    Repr ((partF .puk).set (some ⟨s, some c, some 3⟩) f) { m with puk := s, pukTries := c.toNat, shown := b } :=
  ⟨h.pin, ⟨hl, c, rfl, rfl⟩⟩

theorem does_of {res : Nat × Mach} {sw : Nat} {m' : Mach} {f' : Flash} {r' : Ram} (e : res = (sw, m')) (h : Repr f' m')
    (hv : r'.pin.validated = m'.shown) : Does res (.sw sw) f' r' := by
  rw [e]; exact ⟨rfl, h, hv⟩

theorem verify_exact (hx : x.Ok) (hm : Repr f m) (ho : r.pin.validated = m.shown) :
    wp cutsOnly (verify x i) (Does (m.verify i.c.p1 i.c.p2 i.c.data)) (Does (m.verify i.c.p1 i.c.p2 i.c.data))
      (fun f' _ => f' = f) f r := by
  unfold verify
  apply wp_ite <;> intro h1
  · exact wp_throw (does_of (by unfold Mach.verify; rw [if_pos (by simpa using h1)]) hm ho)
  have h1 : ¬(i.c.p1 ≠ 0 ∧ i.c.p1 ≠ 0xFF) := by simpa using h1
  apply wp_ite <;> intro h2
  · exact wp_throw (does_of (by unfold Mach.verify; rw [if_neg h1, if_pos (by simpa using h2)]) hm ho)
  have h2 : ¬ i.c.p2 ≠ 0x80 := by simpa using h2
  apply wp_ite <;> intro h3
  · have h3 : i.c.p1 = 0xFF := by simpa using h3
    apply wp_ite <;> intro h4
    · have h4 : ¬ i.c.data = [] := fun e => by simp [lc_nil.mpr e] at h4
      exact wp_throw (does_of (by unfold Mach.verify; rw [if_neg h1, if_neg h2, if_pos h3, if_neg h4]) hm ho)
    · have h4 : i.c.data = [] := lc_nil.mp (by simpa using h4)
      exact wp_bind (wp_mod (wp_pure (does_of (m' := { m with shown := false })
        (by unfold Mach.verify; rw [if_neg h1, if_neg h2, if_pos h3, if_pos h4]) ⟨hm.1, hm.2⟩ rfl)))
  have h3 : ¬ i.c.p1 = 0xFF := by simpa using h3
  apply wp_ite <;> intro h4
  · have h4 : i.c.data = [] := lc_nil.mp (by simpa using h4)
    apply wp_bind; apply wp_get
    apply wp_ite <;> intro h5
    · rw [ho] at h5
      exact wp_pure (does_of (by unfold Mach.verify; rw [if_neg h1, if_neg h2, if_neg h3, if_pos h4, if_pos h5]) hm ho)
    · rw [ho] at h5
      apply wp_bind
      apply wp_onPin Pin.getRetries_wp
      · rintro n p q ⟨h, rfl, rfl⟩
        rw [set_get_F, set_get_R]
        obtain ⟨hl, c, hc, hn⟩ := hm.pin
        have hc' : (partF .pin).get f = some ⟨m.pin, some c, some 3⟩ := hc
        cases h with
        | empty p hp hd =>
          rw [hc'] at hp
          cases hp
          have hd : m.pin = [] := hd
          rw [hd] at hl; cases hl
        | io h =>
          rcases h with h | h
          · exact absurd rfl h
          · cases h _ hc'
        | some p k hp hk =>
          rw [hc'] at hp
          cases hp
          cases hk
          refine wp_throw (does_of (sw := SW.pinRetries + c.toNat) (m' := m) ?_ hm ho)
          unfold Mach.verify; rw [if_neg h1, if_neg h2, if_neg h3, if_pos h4, if_neg h5, hn]
      · rintro p q ⟨_, rfl, rfl⟩
        exact set_get_F
  have h4 : ¬ i.c.data = [] := fun e => by simp [lc_nil.mpr e] at h4
  apply wp_ite <;> intro h5
  · have h5 : i.c.data.length ≠ 8 := by simpa [Apdu.Capdu.lc] using h5
    exact wp_throw (does_of (by
      unfold Mach.verify; rw [if_neg h1, if_neg h2, if_neg h3, if_neg h4, if_pos h5]) hm ho)
  have h5 : ¬ i.c.data.length ≠ 8 := by simpa [Apdu.Capdu.lc] using h5
  have ht : i.c.data.take 8 = i.c.data := List.take_of_length_le (by omega)
  apply wp_bind
  refine wp_mono (check_exact (w := .pin) hx (by omega) hm.pin) ?_ ?_ (fun _ _ h => h)
  · rintro _ f' r' ⟨hp, rfl, rfl⟩
    rw [ht] at hp
    exact wp_bind (wp_mod (wp_pure (does_of (m' := { m with pinTries := (3 : UInt8).toNat, shown := true })
      (by unfold Mach.verify; rw [if_neg h1, if_neg h2, if_neg h3, if_neg h4, if_neg h5, hp]; rfl)
      (repr_pin hm hm.pin.1) rfl)))
  · rintro e f' r' ⟨c, sw, hp, rfl, rfl, rfl⟩
    rw [ht] at hp
    exact does_of (m' := { m with pinTries := c.toNat, shown := false })
      (by unfold Mach.verify; rw [if_neg h1, if_neg h2, if_neg h3, if_neg h4, if_neg h5, hp])
      (repr_pin hm hm.pin.1) rfl

/-- What a failing power supply leaves of a change. -/
def Left (m : Mach) (c : Apdu.Capdu) (f' : Flash) : Prop := ∃ m', m.torn c m' ∧ Repr f' m'

theorem command24 (hc : i.c.cla = 0) (hi : i.c.ins = 0x24) :
    m.command i.c = (some (m.change i.c.p1 i.c.p2 i.c.data).1, (m.change i.c.p1 i.c.p2 i.c.data).2) := by
  unfold Mach.command
  rw [hc, hi]
  rfl

theorem command2C (hc : i.c.cla = 0) (hi : i.c.ins = 0x2C) :
    m.command i.c = (some (m.unblock i.c.p1 i.c.p2 i.c.data).1, (m.unblock i.c.p1 i.c.p2 i.c.data).2) := by
  unfold Mach.command
  rw [hc, hi]
  rfl

theorem setDflt_repr {w : Which} {v : Byte} {f' : Flash} (h : setDflt w v f = some f') (hm : Repr f m) : Repr f' m := by
  unfold setDflt at h
  cases w <;> simp only at h <;> split at h <;> cases h <;> exact ⟨hm.1, hm.2⟩

theorem setDflt_some {w : Which} {v : Byte} (hm : Repr f m) : setDflt w v f ≠ none := by
  obtain ⟨⟨_, c, h1, _⟩, ⟨_, d, h2, _⟩⟩ := hm
  cases w <;> simp [setDflt, h1, h2]

theorem change_exact (hx : x.Ok) (hc : i.c.cla = 0) (hi : i.c.ins = 0x24) (hm : Repr f m) (ho : r.pin.validated = m.shown) :
    wp cutsOnly (changeRef x i) (Does (m.change i.c.p1 i.c.p2 i.c.data)) (Does (m.change i.c.p1 i.c.p2 i.c.data))
      (fun f' _ => Left m i.c f') f r := by
  unfold changeRef
  apply wp_ite <;> intro h1
  · exact wp_throw (does_of (by unfold Mach.change; rw [if_pos (by simpa using h1)]) hm ho)
  have h1 : ¬ i.c.p1 ≠ 0 := by simpa using h1
  by_cases h2 : i.c.p2 ≠ 0x80 ∧ i.c.p2 ≠ 0x81
  · rw [if_neg (by simpa using h2.1), if_neg (by simpa using h2.2)]
    exact wp_throw (does_of (by unfold Mach.change; rw [if_neg h1, if_pos h2]) hm ho)
  by_cases hp : i.c.p2 = 0x80
  · rw [if_pos (by simpa using hp)]
    apply wp_bind; apply wp_pure
    apply wp_ite <;> intro h3
    · have h3 : i.c.data.length ≠ 16 := by simpa [Apdu.Capdu.lc] using h3
      exact wp_throw (does_of (by unfold Mach.change; rw [if_neg h1, if_neg h2, if_pos h3]) hm ho)
    have h3 : ¬ i.c.data.length ≠ 16 := by simpa [Apdu.Capdu.lc] using h3
    have h3' : i.c.data.length = 16 := by omega
    have hl : (i.c.data.drop 8).length = 8 := by simp; omega
    have ec : present m.pinTries m.pin (i.c.data.take 8) = (none, 3) → m.change i.c.p1 i.c.p2 i.c.data =
        (0x9000, { m with pin := i.c.data.drop 8, pinTries := 3, shown := false }) := fun e => by
      unfold Mach.change; rw [if_neg h1, if_neg h2, if_neg h3, if_pos hp, e]
    have ok : present m.pinTries m.pin (i.c.data.take 8) = (none, 3) → (m.command i.c).1 = some 0x9000 := fun e => by
      rw [command24 hc hi, ec e]
    apply wp_bind
    refine wp_mono (vtu_exact (w := .pin) (w' := .pin) hx h3' hm.pin hm.pin) ?_ ?_ ?_
    · rintro _ f' r' ⟨e, rfl, rfl⟩
      rw [set_set_F]
      have hr : Repr ((partF .pin).set (some ⟨i.c.data.drop 8, some 3, some 3⟩) f)
          { m with pin := i.c.data.drop 8, pinTries := 3, shown := false } := repr_pin hm hl
      apply wp_bind
      apply wp_wrOr
      · intro f' h
        exact wp_pure (does_of (ec e) (setDflt_repr h hr) rfl)
      · exact fun h => absurd h (setDflt_some hr)
      · exact fun h => absurd rfl h
      · exact fun _ => ⟨_, .inr (.inl rfl), by rw [command24 hc hi, ec e]; exact hr⟩
    · rintro e f' r' ⟨c, sw, h, rfl, rfl, rfl⟩
      exact does_of (m' := { m with pinTries := c.toNat, shown := false })
        (by unfold Mach.change; rw [if_neg h1, if_neg h2, if_neg h3, if_pos hp, h]) (repr_pin hm hm.pin.1) rfl
    · rintro f' r' (rfl | ⟨e, rfl | ⟨c, hc', rfl⟩⟩)
      · exact ⟨m, .inl rfl, hm⟩
      · exact ⟨_, .inr (.inr (.inl ⟨hc, hi, hp, ok e, rfl⟩)), repr_pin hm hm.pin.1⟩
      · rcases hc' with rfl | ⟨h, _⟩
        · rw [set_set_F]
          exact ⟨_, .inr (.inl rfl), by rw [command24 hc hi, ec e]; exact repr_pin hm hl⟩
        · exact absurd rfl h
  · have hp' : i.c.p2 = 0x81 := Decidable.not_not.mp fun e => h2 ⟨hp, e⟩
    rw [if_neg (by simpa using hp), if_pos (by simpa using hp')]
    apply wp_bind; apply wp_pure
    apply wp_ite <;> intro h3
    · have h3 : i.c.data.length ≠ 16 := by simpa [Apdu.Capdu.lc] using h3
      exact wp_throw (does_of (by unfold Mach.change; rw [if_neg h1, if_neg h2, if_pos h3]) hm ho)
    have h3 : ¬ i.c.data.length ≠ 16 := by simpa [Apdu.Capdu.lc] using h3
    have h3' : i.c.data.length = 16 := by omega
    have hl : (i.c.data.drop 8).length = 8 := by simp; omega
    have ec : present m.pukTries m.puk (i.c.data.take 8) = (none, 3) → m.change i.c.p1 i.c.p2 i.c.data =
        (0x9000, { m with puk := i.c.data.drop 8, pukTries := 3 }) := fun e => by
      unfold Mach.change; rw [if_neg h1, if_neg h2, if_neg h3, if_neg hp, e]
    have ok : present m.pukTries m.puk (i.c.data.take 8) = (none, 3) → (m.command i.c).1 = some 0x9000 := fun e => by
      rw [command24 hc hi, ec e]
    apply wp_bind
    refine wp_mono (vtu_exact (w := .puk) (w' := .puk) hx h3' hm.puk hm.puk) ?_ ?_ ?_
    · rintro _ f' r' ⟨e, rfl, rfl⟩
      rw [set_set_F]
      have hr : Repr ((partF .puk).set (some ⟨i.c.data.drop 8, some 3, some 3⟩) f)
          { m with puk := i.c.data.drop 8, pukTries := 3 } := repr_puk hm hl
      apply wp_bind
      apply wp_wrOr
      · intro f' h
        exact wp_pure (does_of (ec e) (setDflt_repr h hr) ho)
      · exact fun h => absurd h (setDflt_some hr)
      · exact fun h => absurd rfl h
      · exact fun _ => ⟨_, .inr (.inl rfl), by rw [command24 hc hi, ec e]; exact hr⟩
    · rintro e f' r' ⟨c, sw, h, rfl, rfl, rfl⟩
      exact does_of (m' := { m with pukTries := c.toNat })
        (by unfold Mach.change; rw [if_neg h1, if_neg h2, if_neg h3, if_neg hp, h]) (repr_puk hm hm.puk.1) ho
    · rintro f' r' (rfl | ⟨e, rfl | ⟨c, hc', rfl⟩⟩)
      · exact ⟨m, .inl rfl, hm⟩
      · exact ⟨_, .inr (.inr (.inr (.inl ⟨hc, hi, hp', ok e, rfl⟩))), repr_puk hm hm.puk.1⟩
      · rcases hc' with rfl | ⟨h, _⟩
        · rw [set_set_F]
          exact ⟨_, .inr (.inl rfl), by rw [command24 hc hi, ec e]; exact repr_puk hm hl⟩
        · exact absurd rfl h

theorem unblock_exact (hx : x.Ok) (hc : i.c.cla = 0) (hi : i.c.ins = 0x2C) (hm : Repr f m)
    (ho : r.pin.validated = m.shown) :
    wp cutsOnly (resetRetry x i) (Does (m.unblock i.c.p1 i.c.p2 i.c.data)) (Does (m.unblock i.c.p1 i.c.p2 i.c.data))
      (fun f' _ => Left m i.c f') f r := by
  unfold resetRetry
  apply wp_ite <;> intro h1
  · exact wp_throw (does_of (by unfold Mach.unblock; rw [if_pos (by simpa using h1)]) hm ho)
  have h1 : ¬ i.c.p1 ≠ 0 := by simpa using h1
  apply wp_ite <;> intro h2
  · exact wp_throw (does_of (by unfold Mach.unblock; rw [if_neg h1, if_pos (by simpa using h2)]) hm ho)
  have h2 : ¬ i.c.p2 ≠ 0x80 := by simpa using h2
  apply wp_ite <;> intro h3
  · have h3 : i.c.data.length ≠ 16 := by simpa [Apdu.Capdu.lc] using h3
    exact wp_throw (does_of (by unfold Mach.unblock; rw [if_neg h1, if_neg h2, if_pos h3]) hm ho)
  have h3 : ¬ i.c.data.length ≠ 16 := by simpa [Apdu.Capdu.lc] using h3
  have h3' : i.c.data.length = 16 := by omega
  have hl : (i.c.data.drop 8).length = 8 := by simp; omega
  have ec : present m.pukTries m.puk (i.c.data.take 8) = (none, 3) → m.unblock i.c.p1 i.c.p2 i.c.data =
      (0x9000, { m with pin := i.c.data.drop 8, pinTries := 3, pukTries := 3, shown := false }) := fun e => by
    unfold Mach.unblock; rw [if_neg h1, if_neg h2, if_neg h3, e]
  have ok : present m.pukTries m.puk (i.c.data.take 8) = (none, 3) → (m.command i.c).1 = some 0x9000 := fun e => by
    rw [command2C hc hi, ec e]
  have rp : Repr ((partF .puk).set (some ⟨m.puk, some 3, some 3⟩) f) { m with pukTries := 3 } := repr_puk hm hm.puk.1
  apply wp_bind
  refine wp_mono (vtu_exact (w := .puk) (w' := .pin) hx h3' hm.puk hm.pin) ?_ ?_ ?_
  · rintro _ f' r' ⟨e, rfl, rfl⟩
    exact wp_pure (does_of (ec e) (repr_pin rp hl) rfl)
  · rintro e f' r' ⟨c, sw, h, rfl, rfl, rfl⟩
    exact does_of (m' := { m with pukTries := c.toNat })
      (by unfold Mach.unblock; rw [if_neg h1, if_neg h2, if_neg h3, h]) (repr_puk hm hm.puk.1) ho
  · rintro f' r' (rfl | ⟨e, rfl | ⟨c, hc', rfl⟩⟩)
    · exact ⟨m, .inl rfl, hm⟩
    · exact ⟨_, .inr (.inr (.inr (.inr (.inl ⟨hc, hi, ok e, rfl⟩)))), rp⟩
    · rcases hc' with rfl | ⟨_, h⟩
      · exact ⟨_, .inr (.inl rfl), by rw [command2C hc hi, ec e]; exact repr_pin rp hl⟩
      · refine ⟨_, .inr (.inr (.inr (.inr (.inr ⟨hc, hi, ok e, rfl⟩)))), ?_⟩
        exact ⟨⟨hl, c, rfl, h⟩, rp.puk⟩

/-! ### Reset -/

theorem factory_repr (rnd : Nat → Byte) (a : Option Alg) : Repr (factory rnd a) .new :=
  ⟨⟨rfl, 3, rfl, rfl⟩, ⟨rfl, 3, rfl, rfl⟩⟩

theorem retries_exact {p : Pin.Flash} {s : Bytes} {k : Nat} (h : Stores p s k) {n : Option Nat}
    (hn : Pin.RetEff cutsOnly p n) : n = some k := by
  obtain ⟨hl, c, rfl, rfl⟩ := h
  cases hn with
  | empty p hp hd =>
    cases hp
    have hd : s = [] := hd
    rw [hd] at hl; cases hl
  | io h =>
    rcases h with h | h
    · exact absurd rfl h
    · cases h _ rfl
  | some p k hp hk =>
    cases hp
    cases hk
    rfl

/-- RESET without power failures. -/
theorem reset_exact (hm : Repr f m) (ho : r.pin.validated = m.shown) :
    wp noFault (resetCmd i) (Does (m.reset i.c.p1 i.c.p2 i.c.data)) (Does (m.reset i.c.p1 i.c.p2 i.c.data))
      (fun _ _ => False) f r := by
  have weak : ∀ {p : Pin.Flash} {n : Option Nat}, Pin.RetEff noFault p n → Pin.RetEff cutsOnly p n := by
    intro p n h
    cases h with
    | empty p hp hd => exact .empty p hp hd
    | io h => exact .io (h.imp_left (by intro h; cases h))
    | some p c hp hc hd => exact .some p c hp hc (hd.imp_right (by intro h; cases h))
  unfold resetCmd
  apply wp_ite <;> intro h1
  · exact wp_throw (does_of (by unfold Mach.reset; rw [if_pos (by simpa [← Decidable.not_and_iff_not_or_not] using h1)]) hm ho)
  have h1 : ¬(i.c.p1 ≠ 0 ∨ i.c.p2 ≠ 0) := by simpa using h1
  apply wp_ite <;> intro h2
  · have h2 : i.c.data ≠ [] := fun e => by simp [lc_nil.mpr e] at h2
    exact wp_throw (does_of (by unfold Mach.reset; rw [if_neg h1, if_pos h2]) hm ho)
  have h2 : ¬ i.c.data ≠ [] := fun e => e (lc_nil.mp (by simpa using h2))
  apply wp_bind
  apply wp_onPin Pin.getRetries_wp
  · rintro n p q ⟨h, rfl, rfl⟩
    rw [set_get_F, set_get_R]
    have hn := retries_exact hm.pin (weak h)
    subst hn
    apply wp_ite <;> intro h3
    · have h3 : m.pinTries ≠ 0 := Nat.pos_iff_ne_zero.mp h3
      exact wp_throw (does_of (by unfold Mach.reset; rw [if_neg h1, if_neg h2, if_pos (.inl h3)]) hm ho)
    have h3 : m.pinTries = 0 := Nat.eq_zero_of_not_pos h3
    apply wp_bind
    apply wp_onPin Pin.getRetries_wp
    · rintro n p q ⟨h, rfl, rfl⟩
      rw [set_get_F, set_get_R]
      have hn := retries_exact hm.puk (weak h)
      subst hn
      apply wp_ite <;> intro h4
      · have h4 : m.pukTries ≠ 0 := Nat.pos_iff_ne_zero.mp h4
        exact wp_throw (does_of (by unfold Mach.reset; rw [if_neg h1, if_neg h2, if_pos (.inr h4)]) hm ho)
      have h4 : m.pukTries = 0 := Nat.eq_zero_of_not_pos h4
      have e : m.reset i.c.p1 i.c.p2 i.c.data = (0x9000, .new) := by
        unfold Mach.reset; rw [if_neg h1, if_neg h2, if_neg (by rw [h3, h4]; simp)]
      apply wp_bind
      apply wp_run
      have fin : ∀ f' r', InstEff noFault true i.rnd f r f' r' → Does (m.reset i.c.p1 i.c.p2 i.c.data) (.sw 0x9000) f' r' := by
        intro f' r' h
        obtain ⟨a, ha⟩ := h.ram
        rcases h.onReset rfl with h' | rfl
        · cases h'
        · exact does_of e (factory_repr _ _) (by rw [ha]; rfl)
      refine wp_mono (install_wp true i.rnd) ?_ ?_ ?_
      · exact fun _ f' r' h => wp_pure (fin _ _ h.1)
      · exact fun _ f' r' h => wp_pure (fin _ _ h)
      · rintro f' r' ⟨_, h⟩; cases h
    · rintro p q ⟨h, _⟩; cases h
  · rintro p q ⟨h, _⟩; cases h

/-! ### All commands -/

/-- The answer and what is left, for any command. -/
def Fits' (m : Mach) (c : Apdu.Capdu) (a : Reply) (f' : Flash) (r' : Ram) : Prop :=
  ((m.command c).1 = none ∨ ∃ sw, (m.command c).1 = some sw ∧ a = .sw sw) ∧ Repr f' (m.command c).2 ∧
    r'.pin.validated = (m.command c).2.shown

theorem fits_of {res : Nat × Mach} {c : Apdu.Capdu} (e : m.command c = (some res.1, res.2)) {a : Reply} {f' : Flash}
    {r' : Ram} (h : Does res a f' r') : Fits' m c a f' r' := by
  unfold Fits'
  rw [e]
  exact ⟨.inr ⟨_, rfl, h.1⟩, h.2⟩

theorem select_exact (hc : i.c.cla = 0) (hi : i.c.ins = 0xA4) (hm : Repr f m) (ho : r.pin.validated = m.shown) :
    wp cutsOnly (select i.c) (Fits' m i.c) (Fits' m i.c) (fun f' _ => Left m i.c f') f r := by
  have e : m.command i.c = if i.c.p1 ≠ 4 ∨ i.c.p2 ≠ 0 then (some 0x6A86, m) else (none, { m with shown := false }) := by
    unfold Mach.command
    rw [hc, hi]
    rfl
  unfold select
  apply wp_ite <;> intro h
  · rw [if_pos (by simpa [← Decidable.not_and_iff_not_or_not] using h)] at e
    refine wp_throw ?_
    unfold Fits'
    rw [e]
    exact ⟨.inr ⟨_, rfl, rfl⟩, hm, ho⟩
  · rw [if_neg (by simpa [← Decidable.not_and_iff_not_or_not] using h)] at e
    refine wp_bind (wp_mod (wp_pure ?_))
    unfold Fits'
    rw [e]
    exact ⟨.inl rfl, ⟨hm.1, hm.2⟩, rfl⟩

/-- The commands the machine says nothing about. -/
theorem other_exact (hx : x.Ok) (hc : i.c.cla = 0 ∨ i.c.cla = 0x10 ∧ i.c.ins = 0xDB)
    (hi : i.c.ins ≠ 0xA4 ∧ i.c.ins ≠ 0x20 ∧ i.c.ins ≠ 0x24 ∧ i.c.ins ≠ 0x2C ∧ i.c.ins ≠ 0xFB) (hm : Repr f m)
    (ho : r.pin.validated = m.shown) {o : Outcome Reply} {f' : Flash} {r' : Ram} (h : PEff cutsOnly x i f r o f' r') :
    (∀ a, o = .done a → Fits' m i.c a f' r') ∧ (o = .cut → Left m i.c f') := by
  have e : m.command i.c = (none, m) := by
    unfold Mach.command
    rw [if_neg (fun h => hc.elim h.1 h.2), if_neg hi.1, if_neg hi.2.1, if_neg hi.2.2.1, if_neg hi.2.2.2.1,
      if_neg hi.2.2.2.2]
  suffices hs : (f'.pin = f.pin ∧ f'.puk = f.puk) ∧ (o ≠ .cut → r'.pin = r.pin) by
    have hr : Repr f' m := ⟨by rw [hs.1.1]; exact hm.1, by rw [hs.1.2]; exact hm.2⟩
    refine ⟨?_, fun _ => ⟨m, .inl rfl, hr⟩⟩
    rintro a rfl
    unfold Fits'
    rw [e]
    exact ⟨.inl rfl, hr, by rw [hs.2 (by intro h; cases h)]; exact ho⟩
  cases h with
  | cla h => exact absurd hc h
  | sel h => exact absurd h hi.1
  | verify h => exact absurd h hi.2.1
  | chg h => exact absurd h hi.2.2.1
  | rrc h => exact absurd h hi.2.2.2.1
  | reset h => exact absurd h hi.2.2.2.2
  | get h o r' he => exact ⟨⟨rfl, rfl⟩, fun hn => (get_pin he hn).1⟩
  | ga h o r' he =>
    refine ⟨⟨rfl, rfl⟩, fun hn => ?_⟩
    cases he with
    | bad => rfl
    | cut => exact absurd rfl hn
    | run k hk q hq t ht o r' h =>
      cases h with
      | cut => exact absurd rfl hn
      | fail o ho r' c hc ha => rcases ha with rfl | rfl | rfl <;> rfl
      | _ => rfl
  | put h o f' r' he =>
    refine ⟨?_, fun hn => (put_pin he hn).1⟩
    cases he <;> exact ⟨rfl, rfl⟩
  | adm h o f' r' he =>
    refine ⟨?_, fun hn => (adm_pin he hn).1⟩
    cases he with
    | bad => exact ⟨rfl, rfl⟩
    | done _ _ _ hf => exact ⟨hf.pin, hf.puk⟩
    | cut _ _ hf =>
      rcases hf with rfl | ⟨_, hf, _⟩
      · exact ⟨rfl, rfl⟩
      · exact ⟨hf.pin, hf.puk⟩
  | set h o f' he =>
    refine ⟨?_, fun hn => rfl⟩
    cases he with
    | bad => exact ⟨rfl, rfl⟩
    | half => exact ⟨rfl, rfl⟩
    | done => exact ⟨rfl, rfl⟩
    | cut _ _ hf => rcases hf with rfl | ⟨_, rfl⟩ <;> exact ⟨rfl, rfl⟩
  | info => exact ⟨⟨rfl, rfl⟩, fun _ => rfl⟩
  | cut => exact ⟨⟨rfl, rfl⟩, fun h => absurd rfl h⟩

theorem process_pre {A : Fault → Prop} {Q E : Reply → Flash → Ram → Prop} {X : Flash → Ram → Prop}
    (hc : i.c.cla = 0 ∨ i.c.cla = 0x10 ∧ i.c.ins = 0xDB) (h : wp A (dispatch x i) Q E X f (pre i.c r)) :
    wp A (process x i) Q E X f r := by
  unfold process
  apply wp_ite <;> intro hn
  · rcases hc with h | ⟨h, h'⟩ <;> simp_all
  unfold pre at h
  wps
  all_goals simp_all

theorem process_exact (hx : x.Ok) (hi : i.c.ins ≠ 0xFB) (hm : Repr f m) (ho : r.pin.validated = m.shown) :
    wp cutsOnly (process x i) (Fits' m i.c) (Fits' m i.c) (fun f' _ => Left m i.c f') f r := by
  by_cases hc : i.c.cla = 0 ∨ i.c.cla = 0x10 ∧ i.c.ins = 0xDB
  · by_cases hk : i.c.ins ≠ 0xA4 ∧ i.c.ins ≠ 0x20 ∧ i.c.ins ≠ 0x24 ∧ i.c.ins ≠ 0x2C
    · refine wp_mono (process_wp hx) ?_ ?_ ?_
      · exact fun a f' r' h => (other_exact hx hc ⟨hk.1, hk.2.1, hk.2.2.1, hk.2.2.2, hi⟩ hm ho h).1 a rfl
      · exact fun a f' r' h => (other_exact hx hc ⟨hk.1, hk.2.1, hk.2.2.1, hk.2.2.2, hi⟩ hm ho h).1 a rfl
      · exact fun f' r' h => (other_exact hx hc ⟨hk.1, hk.2.1, hk.2.2.1, hk.2.2.2, hi⟩ hm ho h).2 rfl
    · have hk : i.c.ins = 0xA4 ∨ i.c.ins = 0x20 ∨ i.c.ins = 0x24 ∨ i.c.ins = 0x2C := by
        by_cases h1 : i.c.ins = 0xA4
        · exact .inl h1
        by_cases h2 : i.c.ins = 0x20
        · exact .inr (.inl h2)
        by_cases h3 : i.c.ins = 0x24
        · exact .inr (.inr (.inl h3))
        exact .inr (.inr (.inr (Decidable.not_not.mp fun h4 => hk ⟨h1, h2, h3, h4⟩)))
      have hc0 : i.c.cla = 0 := by
        rcases hc with h | ⟨_, h⟩
        · exact h
        · rw [h] at hk
          rcases hk with h | h | h | h <;> cases h
      apply process_pre hc
      rcases hk with h | h | h | h
      · have e : dispatch x i = select i.c := by simp only [dispatch, h]; rfl
        rw [e]
        exact select_exact hc0 h hm ho
      · have e : dispatch x i = verify x i := by simp only [dispatch, h]; rfl
        have ec : m.command i.c = (some (m.verify i.c.p1 i.c.p2 i.c.data).1, (m.verify i.c.p1 i.c.p2 i.c.data).2) := by
          unfold Mach.command
          rw [hc0, h]
          rfl
        rw [e]
        exact wp_mono (verify_exact hx hm ho) (fun _ _ _ h => fits_of ec h) (fun _ _ _ h => fits_of ec h)
          (fun f' _ h => ⟨m, .inl rfl, by rw [h]; exact hm⟩)
      · have e : dispatch x i = changeRef x i := by simp only [dispatch, h]; rfl
        rw [e]
        exact wp_mono (change_exact hx hc0 h hm ho) (fun _ _ _ h' => fits_of (command24 hc0 h) h')
          (fun _ _ _ h' => fits_of (command24 hc0 h) h') (fun f' _ h => h)
      · have e : dispatch x i = resetRetry x i := by simp only [dispatch, h]; rfl
        rw [e]
        exact wp_mono (unblock_exact hx hc0 h hm ho) (fun _ _ _ h' => fits_of (command2C hc0 h) h')
          (fun _ _ _ h' => fits_of (command2C hc0 h) h') (fun f' _ h => h)
  · have e : m.command i.c = (some 0x6E00, m) := by
      unfold Mach.command
      rw [if_pos ⟨fun h => hc (.inl h), fun h => hc (.inr h)⟩]
    unfold process
    apply wp_ite <;> intro h
    · refine wp_throw ?_
      unfold Fits'
      rw [e]
      exact ⟨.inr ⟨_, rfl, rfl⟩, hm, ho⟩
    · exact absurd (by simpa [Decidable.or_iff_not_imp_left] using h) hc

theorem process_reset (hi : i.c.ins = 0xFB) (hm : Repr f m) (ho : r.pin.validated = m.shown) :
    wp noFault (process x i) (Fits' m i.c) (Fits' m i.c) (fun _ _ => False) f r := by
  by_cases hc : i.c.cla = 0
  · apply process_pre (.inl hc)
    have e : dispatch x i = resetCmd i := by simp only [dispatch, hi]; rfl
    have ec : m.command i.c = (some (m.reset i.c.p1 i.c.p2 i.c.data).1, (m.reset i.c.p1 i.c.p2 i.c.data).2) := by
      unfold Mach.command
      rw [hc, hi]
      rfl
    rw [e]
    exact wp_mono (reset_exact hm ho) (fun _ _ _ h => fits_of ec h) (fun _ _ _ h => fits_of ec h) (fun _ _ h => h)
  · have hn : ¬(i.c.cla = 0 ∨ i.c.cla = 0x10 ∧ i.c.ins = 0xDB) := by
      rintro (h | ⟨_, h⟩)
      · exact hc h
      · rw [hi] at h; cases h
    have e : m.command i.c = (some 0x6E00, m) := by
      unfold Mach.command
      rw [if_pos ⟨hc, fun h => hn (.inr h)⟩]
    unfold process
    apply wp_ite <;> intro h
    · refine wp_throw ?_
      unfold Fits'
      rw [e]
      exact ⟨.inr ⟨_, rfl, rfl⟩, hm, ho⟩
    · exact absurd (by simpa [Decidable.or_iff_not_imp_left] using h) hn

/-! ### Histories -/

theorem command_powered {c : Apdu.Capdu} (h : m.powered = true) : (m.command c).2.powered = true := by
  simp only [Mach.command, Mach.verify, Mach.change, Mach.unblock, Mach.reset]
  repeat' split
  all_goals first | exact h | rfl

theorem torn_powered {c : Apdu.Capdu} {m' : Mach} (h : m.torn c m') (hp : m.powered = true) : m'.powered = true := by
  rcases h with rfl | rfl | ⟨_, _, _, _, rfl⟩ | ⟨_, _, _, _, rfl⟩ | ⟨_, _, _, rfl⟩ | ⟨_, _, _, rfl⟩
  · exact hp
  · exact command_powered hp
  all_goals exact hp

/-- The device and the machine. -/
structure Same (s : St) (m : Mach) : Prop where
  files : Repr s.flash m
  alg : s.flash.alg.isSome = true
  on : ∀ r, s.ram = some r → m.powered = true ∧ r.pin.validated = m.shown
  off : s.ram = none → m.powered = false

theorem alg_kept {env : Env} (hi : i.c.ins ≠ 0xFB) (h : f.alg.isSome = true) :
    (exec (process x i) f r env).1.flash.alg.isSome = true := by
  rw [exec_flash]
  by_cases hp : i.c.p2 = slotId .k9A
  · have : ¬ Rekeys .k9C (.apdu i) := by
      show ¬((i.c.ins = 0x47 ∨ i.c.ins = 0xFE) ∧ i.c.p2 = slotId .k9C ∨ i.c.ins = 0xFB)
      rintro (⟨_, h⟩ | h)
      · rw [hp] at h; cases h
      · exact hi h
    exact ((process_kept this).run f r env).2 h
  · have : ¬ Rekeys .k9A (.apdu i) := by
      show ¬((i.c.ins = 0x47 ∨ i.c.ins = 0xFE) ∧ i.c.p2 = slotId .k9A ∨ i.c.ins = 0xFB)
      rintro (⟨_, h⟩ | h)
      · exact hp h
      · exact hi h
    exact ((process_kept this).run f r env).2 h

theorem reset_alg {o : Outcome Reply} {f' : Flash} {r' : Ram} (hi : i.c.ins = 0xFB) (h : PEff noFault x i f r o f' r')
    (ha : f.alg.isSome = true) : f'.alg.isSome = true := by
  cases h with
  | cla => exact ha
  | cut => exact ha
  | info => exact ha
  | sel => exact ha
  | get => exact ha
  | ga => exact ha
  | reset _ _ _ _ he =>
    cases he with
    | bad => exact ha
    | cut h => cases h
    | done _ _ _ _ _ _ _ _ h =>
      rcases h.onReset rfl with h | rfl
      · cases h
      · rfl
  | verify h => rw [hi] at h; cases h
  | chg h => rw [hi] at h; cases h
  | rrc h => rw [hi] at h; cases h
  | put h => rw [hi] at h; cases h
  | adm h => rw [hi] at h; rcases h with h | h | h <;> cases h
  | set h => rw [hi] at h; cases h

theorem boot_exact {rnd : Nat → Byte} (ha : f.alg.isSome = true) :
    wp cutsOnly (installOp false rnd) (fun a f' r' => f' = f ∧ a = .sw 0x9000 ∧ r'.pin.validated = false)
      (fun _ _ _ => False) (fun f' _ => f' = f) f Ram.init := by
  unfold installOp install
  apply wp_bind; apply wp_bind; apply wp_mod
  apply wp_ite <;> intro h
  · cases h
  apply wp_bind
  apply wp_rdF
  · intro _
    apply wp_ite <;> intro h
    · apply wp_bind
      apply wp_rdOr
      · intro a _; exact wp_mod (wp_pure ⟨rfl, rfl, rfl⟩)
      · intro h'; rw [h'] at ha; cases ha
      · intro h'; exact absurd rfl h'
      · exact fun _ => rfl
    · exact absurd ha h
  · intro h; exact absurd rfl h
  · exact fun _ => rfl

theorem none_all {env : Env} (h : env.all noFault) : env.all cutsOnly := fun n => by
  have := h n
  intro e
  rw [e] at this; cases this

/-- An operation takes the device where it takes the machine. -/
theorem step_same (hx : x.Ok) {s : St} {op : Op} {env : Env} (he : env.all cutsOnly)
    (hr : Resets op → env.all noFault) (h : Same s m) :
    ∃ m', m.Next op (step x s op env).2 m' ∧ Same (step x s op env).1 m' := by
  obtain ⟨f, o⟩ := s
  cases op with
  | boot rnd =>
    have e : step x ⟨f, o⟩ (.boot rnd) env = exec (installOp false rnd) f Ram.init env := by cases o <;> rfl
    rw [e]
    rcases exec_of_wp (P := fun o f' r' => match o with
      | .cut => f' = f
      | .done a => f' = f ∧ a = .sw 0x9000 ∧ r'.pin.validated = false)
      (wp_mono (boot_exact h.alg) (fun _ _ _ h => h) (fun _ _ _ h => h.elim) (fun _ _ h => h)) he with
      ⟨f', r', e, h'⟩ | ⟨f', r', a, e, h'⟩ <;> rw [e]
    · subst h'
      exact ⟨_, .bootCut, ⟨⟨h.files.1, h.files.2⟩, h.alg, (fun _ h => by cases h), fun _ => rfl⟩⟩
    · obtain ⟨rfl, rfl, h'⟩ := h'
      exact ⟨_, .boot, ⟨⟨h.files.1, h.files.2⟩, h.alg, (fun _ h => by cases h; exact ⟨rfl, h'⟩), (fun h => by cases h)⟩⟩
  | factory rnd =>
    cases o with
    | none => exact ⟨m, .off (h.off rfl) (fun _ e => by cases e), h⟩
    | some r =>
      show ∃ m', m.Next _ (exec (installOp true rnd) f r env).2 m' ∧ Same (exec (installOp true rnd) f r env).1 m'
      have hw : wp noFault (installOp true rnd) (fun _ f' r' => f' = factory rnd f.alg ∧ r'.pin.validated = false)
          (fun _ f' r' => f' = factory rnd f.alg ∧ r'.pin.validated = false) (fun _ _ => False) f r := by
        have key : ∀ f' r', InstEff noFault true rnd f r f' r' → f' = factory rnd f.alg ∧ r'.pin.validated = false := by
          intro f' r' h'
          obtain ⟨b, hb⟩ := h'.ram
          exact ⟨(h'.onReset rfl).resolve_left (by intro h; cases h), by rw [hb]; rfl⟩
        refine wp_mono (installOp_wp (A := noFault) true rnd) (fun _ => key) (fun _ => key) ?_
        rintro f' r' ⟨_, h⟩; cases h
      rcases exec_of_wp (P := fun o f' r' => match o with
        | .cut => False
        | .done _ => f' = factory rnd f.alg ∧ r'.pin.validated = false) hw (hr (.inl ⟨rnd, rfl⟩)) with
        ⟨f', r', e, h'⟩ | ⟨f', r', a, e, h'⟩
      · exact h'.elim
      · rw [e]
        obtain ⟨rfl, h'⟩ := h'
        exact ⟨_, .factory (h.on r rfl).1, ⟨factory_repr _ _, rfl, (fun _ h => by cases h; exact ⟨rfl, h'⟩),
          (fun h => by cases h)⟩⟩
  | deselect =>
    cases o with
    | none => exact ⟨m, .off (h.off rfl) (fun _ e => by cases e), h⟩
    | some r =>
      exact ⟨_, .deselect (h.on r rfl).1, ⟨⟨h.files.1, h.files.2⟩, h.alg,
        (fun _ e => by cases e; exact ⟨(h.on r rfl).1, rfl⟩), (fun h => by cases h)⟩⟩
  | apdu i =>
    cases o with
    | none => exact ⟨m, .off (h.off rfl) (fun _ e => by cases e), h⟩
    | some r =>
      obtain ⟨hp, ho⟩ := h.on r rfl
      show ∃ m', m.Next _ (exec (process x i) f r env).2 m' ∧ Same (exec (process x i) f r env).1 m'
      have fin : ∀ a f' r', Fits' m i.c a f' r' → f'.alg.isSome = true →
          ∃ m', m.Next (.apdu i) (.reply a) m' ∧ Same ⟨f', some r'⟩ m' := by
        intro a f' r' ⟨h1, h2, h3⟩ h4
        refine ⟨(m.command i.c).2, ?_, ⟨h2, h4, ?_, fun h => by cases h⟩⟩
        · rcases h1 with h1 | ⟨sw, h1, rfl⟩
          · exact .other hp (by rw [← h1])
          · exact .answer hp (by rw [← h1])
        · rintro _ ⟨⟩
          exact ⟨command_powered hp, h3⟩
      by_cases hi : i.c.ins = 0xFB
      · have hw : wp noFault (process x i) (fun a f' r' => Fits' m i.c a f' r' ∧ f'.alg.isSome = true)
            (fun a f' r' => Fits' m i.c a f' r' ∧ f'.alg.isSome = true) (fun _ _ => False) f r :=
          wp_mono (wp_and (process_reset (x := x) hi h.files ho) (process_wp hx))
            (fun a f' r' h' => ⟨h'.1, reset_alg hi h'.2 h.alg⟩) (fun a f' r' h' => ⟨h'.1, reset_alg hi h'.2 h.alg⟩)
            (fun f' r' h' => h'.1)
        rcases exec_of_wp (P := fun o f' r' => match o with
          | .cut => False
          | .done a => Fits' m i.c a f' r' ∧ f'.alg.isSome = true) hw (hr (.inr ⟨i, rfl, hi⟩)) with
          ⟨f', r', e, h'⟩ | ⟨f', r', a, e, h'⟩
        · exact h'.elim
        · rw [e]
          exact fin _ _ _ h'.1 h'.2
      · have ha := alg_kept (x := x) (r := r) (env := env) hi h.alg
        rcases exec_of_wp (P := fun o f' r' => match o with
          | .cut => Left m i.c f'
          | .done a => Fits' m i.c a f' r') (process_exact hx hi h.files ho) he with
          ⟨f', r', e, h'⟩ | ⟨f', r', a, e, h'⟩ <;> rw [e] at ha ⊢
        · obtain ⟨m', ht, hm'⟩ := h'
          exact ⟨m'.off, .cut hp ht, ⟨⟨hm'.1, hm'.2⟩, ha, (fun _ h => by cases h), fun _ => rfl⟩⟩
        · exact fin _ _ _ h' ha

theorem trace_append {l l' : List (Op × Out)} {m m' m'' : Mach} (h : m.Trace l m') (h' : m'.Trace l' m'') :
    m.Trace (l ++ l') m'' := by
  induction h with
  | nil => exact h'
  | cons hn _ ih => exact .cons hn (ih h')

theorem run_same (hx : x.Ok) {h : List (Op × Env)}
    (he : ∀ e ∈ h, e.2.all cutsOnly ∧ (Resets e.1 → e.2.all noFault)) {s : St} {log : List Entry} {m0 : Mach}
    (ht : m0.Trace (observed log) m) (hs : Same s m) :
    ∃ m', m0.Trace (observed (run x s log h).2) m' ∧ Same (run x s log h).1 m' := by
  induction h generalizing s log m with
  | nil => exact ⟨m, ht, hs⟩
  | cons e h ih =>
    obtain ⟨op, env⟩ := e
    have h1 := he (op, env) (by simp)
    obtain ⟨m', hn, hs'⟩ := step_same (op := op) hx h1.1 h1.2 hs
    refine ih (fun e he' => he e (by simp [he'])) ?_ hs'
    have : observed ((s, op, (step x s op env).2) :: log) = observed log ++ [(op, (step x s op env).2)] := by
      simp [observed]
    rw [this]
    exact trace_append ht (.cons hn .nil)

end Verif.Piv
