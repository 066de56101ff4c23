import Verif.Props.UsbSafe
/-
C83: the states of a USB device.
-/
namespace Verif.Usb
open Verif.Spec.Usb

/-- No change of the device state, nothing for the functions of the device. -/
structure Keep (s t : St) : Prop where
  dev : t.dev = s.dev
  old : t.old = s.old
  config : t.config = s.config
  log : t.log.countP used = s.log.countP used

def Keeps (s : St) (x : C St) : Prop := ∀ t, x = .ok t → Keep s t

theorem Keep.trans {s t u : St} (h : Keep s t) (g : Keep t u) : Keep s u :=
  ⟨g.dev.trans h.dev, g.old.trans h.old, g.config.trans h.config, g.log.trans h.log⟩

theorem Keep.refl (s : St) : Keep s s := ⟨rfl, rfl, rfl, rfl⟩

theorem Keeps.bind {s : St} {x : C St} {f : St → C St} (hx : Keeps s x) (hf : ∀ t, Keeps t (f t)) : Keeps s (x >>= f) := by
  intro u e
  cases x with
  | error => cases e
  | ok t => exact (hx t rfl).trans (hf t u e)

theorem Keeps.from {s k : St} {x : C St} (h : Keep s k) (g : Keeps k x) : Keeps s x := fun t e => h.trans (g t e)

theorem keeps_ok {s t : St} (h : Keep s t) : Keeps s (.ok t) := by rintro _ ⟨⟩; exact h

theorem keeps_transmit {c : Cfg} {s : St} {p : Src} {o n : Nat} : Keeps s (transmit c s p o n) := by
  intro t e
  simp only [transmit] at e
  cases h : rdSrc s p o (min n c.mps) with
  | error => rw [h] at e; cases e
  | ok d =>
    rw [h] at e; cases e
    exact ⟨rfl, rfl, rfl, List.countP_cons_of_neg (by simp [used])⟩

theorem keeps_send {c : Cfg} {s : St} {p : Src} {n : Nat} : Keeps s (ctlSendData c s p n) :=
  .from (k := { s with e0 := .dataIn, inTotal := n, inRem := n }) ⟨rfl, rfl, rfl, rfl⟩ keeps_transmit
theorem keeps_status {c : Cfg} {s : St} : Keeps s (ctlSendStatus c s) :=
  .from (k := { s with e0 := .statusIn }) ⟨rfl, rfl, rfl, rfl⟩ keeps_transmit

theorem keep_error (s : St) : Keep s (ctlError s) :=
  ⟨rfl, rfl, rfl, List.countP_cons_of_neg (by decide)⟩

theorem keeps_error {s : St} : Keeps s (.ok (ctlError s)) := keeps_ok (keep_error s)

theorem keeps_sendDesc {c : Cfg} {s : St} {p : Src} {n : Nat} {r : Req} : Keeps s (sendDesc c s p n r) := by
  simp only [sendDesc]
  split
  · exact keeps_send
  · exact keeps_ok (.refl s)

theorem keeps_compose {s : St} {d : Bytes} {f : St → C St} (hf : ∀ t, Keeps t (f t)) : Keeps s (compose s d >>= f) := by
  refine Keeps.bind ?_ hf
  intro t e
  simp only [compose] at e
  cases h : wrRange s.buf 0 d with
  | error => rw [h] at e; cases e
  | ok b => rw [h] at e; cases e; exact ⟨rfl, rfl, rfl, rfl⟩

theorem keeps_descriptor {c : Cfg} {s : St} {r : Req} : Keeps s (getDescriptor c s r) := by
  have hstr (x : List Char) :
      Keeps s ((do
        let s ← compose s (stringDesc x)
        pure (some (s, Src.shared, x.length * 2 + 2)) : C _) >>= fun o => match o with
          | none => (pure (ctlError s) : C St)
          | some (s, p, len) => sendDesc c s p len r) := by
    rw [bind_assoc]
    exact keeps_compose fun t => keeps_sendDesc
  simp only [getDescriptor, Usb.descriptor]
  by_cases t1 : hi r.value = 0x0F
  · simp only [t1, if_true]
    rw [bind_assoc]
    exact keeps_compose fun t => keeps_sendDesc
  by_cases t2 : hi r.value = 1
  · simp only [t2, show ¬ ((1 : Byte) = 0x0F) from by decide, if_true, if_false, ok_bind, pure_eq_ok]
    exact keeps_sendDesc
  by_cases t3 : hi r.value = 2
  · simp only [t3, show ¬ ((2 : Byte) = 0x0F) from by decide, show ¬ ((2 : Byte) = 1) from by decide, if_true, if_false, configDesc_eq]
    simp only [ok_bind]
    rw [bind_assoc]
    exact keeps_compose fun t => keeps_sendDesc
  by_cases t4 : hi r.value = 3
  · simp only [t4, show ¬ ((3 : Byte) = 0x0F) from by decide, show ¬ ((3 : Byte) = 1) from by decide, show ¬ ((3 : Byte) = 2) from by decide,
      if_true, if_false]
    by_cases i0 : lo r.value = 0
    · simp only [i0, if_true, ok_bind, pure_eq_ok]
      exact keeps_sendDesc
    by_cases i1 : lo r.value = 1
    · simp only [i1, show ¬ ((1 : Byte) = 0) from by decide, if_true, if_false]
      exact hstr _
    by_cases i2 : lo r.value = 2
    · simp only [i2, show ¬ ((2 : Byte) = 0) from by decide, show ¬ ((2 : Byte) = 1) from by decide, if_true, if_false]
      exact hstr _
    by_cases i3 : lo r.value = 3
    · simp only [i3, show ¬ ((3 : Byte) = 0) from by decide, show ¬ ((3 : Byte) = 1) from by decide, show ¬ ((3 : Byte) = 2) from by decide,
        if_true, if_false]
      exact hstr _
    simp only [i0, i1, i2, i3, if_false]
    cases hu : userStr (lo r.value) with
    | none => exact keeps_sendDesc (c := c) (p := .const []) (n := 0) (r := r)
    | some x => exact hstr x
  · simp only [t1, t2, t3, t4, if_false, pure_eq_ok, ok_bind]
    exact keeps_error

theorem keeps_vendor {c : Cfg} {s : St} {r : Req} : Keeps s (vendorReq c s r) := by
  simp only [vendorReq]
  repeat' split
  all_goals first | exact keeps_sendDesc | exact keeps_error

theorem keeps_hid {c : Cfg} {s : St} {r : Req} {a b : Bytes} {f : St → Nat → St} (hf : ∀ n, Keep s (f s n)) :
    Keeps s (hidSetup c s r a b f) := by
  simp only [hidSetup]
  repeat' split
  all_goals first | exact keeps_send | exact keeps_error | exact keeps_ok (hf _) | exact keeps_ok (.refl s)

theorem keeps_web {c : Cfg} {s : St} {r : Req} {tick : Nat} : Keeps s (webSetup c s r tick) := by
  have hk : Keep s { s with keep := tick } := ⟨rfl, rfl, rfl, rfl⟩
  simp only [webSetup]
  split
  · split
    · exact .from hk keeps_error
    split
    · exact Keeps.from (k := { s with keep := tick, owner := Apdu.acquireCas s.owner WebUsb.ownerWeb }) ⟨rfl, rfl, rfl, rfl⟩ keeps_error
    split
    · exact Keeps.from (k := { s with keep := tick, owner := Apdu.acquireCas s.owner WebUsb.ownerWeb, web := .hold })
        ⟨rfl, rfl, rfl, rfl⟩ keeps_error
    · exact keeps_ok ⟨rfl, rfl, rfl, rfl⟩
  split
  · split
    · exact .from hk (Keeps.bind keeps_send fun t => keeps_ok ⟨rfl, rfl, rfl, rfl⟩)
    · exact .from hk keeps_error
  split
  · exact .from hk keeps_send
  · exact .from hk keeps_error

theorem keeps_class {c : Cfg} {s : St} {r : Req} {tick : Nat} : Keeps s (classSetup c s r tick) := by
  simp only [classSetup]
  split
  · exact keeps_hid fun n => ⟨rfl, rfl, rfl, rfl⟩
  split
  · exact keeps_hid fun n => ⟨rfl, rfl, rfl, rfl⟩
  split
  · exact keeps_web
  · exact keeps_error

theorem keeps_itf {c : Cfg} {s : St} {r : Req} {tick : Nat} : Keeps s (stdItfReq c s r tick) := by
  simp only [stdItfReq]
  split
  · split
    · refine Keeps.bind keeps_class fun t => ?_
      split
      · exact keeps_status
      · exact keeps_ok (.refl t)
    · exact keeps_error
  · exact keeps_error

theorem keeps_ep {c : Cfg} {s : St} {r : Req} {tick : Nat} : Keeps s (stdEpReq c s r tick) := by
  have hh (l : List Byte) : Keep s { s with halted := l } := ⟨rfl, rfl, rfl, rfl⟩
  simp only [stdEpReq]
  split
  · exact keeps_ok (.refl s)
  split
  · exact keeps_class
  split
  · split
    · split
      · exact keeps_ok (hh _)
      · exact keeps_ok (.refl s)
    · refine Keeps.bind ?_ fun t => keeps_status
      split
      · exact .from (hh _) keeps_class
      · exact keeps_class
    · exact keeps_error
  split
  · split
    · split
      · exact keeps_ok (hh _)
      · exact keeps_ok (.refl s)
    · split
      · split
        · exact Keeps.bind (.from (hh _) keeps_class) fun t => keeps_status
        · exact Keeps.bind (keeps_ok (.refl s)) fun t => keeps_status
      · exact keeps_ok (.refl s)
    · exact keeps_error
  split
  · split
    · split
      · exact keeps_ok (hh _)
      · exact keeps_ok (.refl s)
    · exact keeps_send
    · exact keeps_error
  exact keeps_ok (.refl s)

theorem keeps_feature {c : Cfg} {s : St} {r : Req} {tick : Nat} {w : Bool} :
    Keeps s (classSetup c { s with wakeup := w } r tick >>= fun s => ctlSendStatus c s) :=
  Keeps.bind (.from (k := { s with wakeup := w }) ⟨rfl, rfl, rfl, rfl⟩ keeps_class) fun _ => keeps_status

/-- Only SET_ADDRESS and SET_CONFIGURATION change the state. -/
theorem keeps_dev {c : Cfg} {s : St} {r : Req} {tick : Nat} (h5 : r.br ≠ 5) (h9 : r.br ≠ 9) : Keeps s (stdDevReq c s r tick) := by
  simp only [stdDevReq, h5, h9, if_false]
  split
  · exact keeps_descriptor
  split
  · simp only [getConfig]
    repeat' split
    all_goals first | exact keeps_send | exact keeps_error
  split
  · simp only [getStatus]
    repeat' split
    all_goals first | exact keeps_send | exact keeps_error
  split
  · simp only [setFeature]
    split
    · exact keeps_feature
    · exact keeps_ok (.refl s)
  split
  · simp only [clrFeature]
    repeat' split
    all_goals first | exact keeps_feature | exact keeps_error | exact keeps_ok (.refl s)
  exact keeps_error

/-- The state with another device state. -/
theorem status_dev {c : Cfg} {s t : St} (h : ctlSendStatus c s = .ok t) : Keep s t := keeps_status t h

/-- The device state after SET_ADDRESS. -/
theorem address_dev {c : Cfg} {s t : St} {r : Req} (h : setAddress c s r = .ok t) :
    t.old = s.old ∧ t.config = s.config ∧ t.log.countP used = s.log.countP used ∧
      t.dev = if s.dev = .configured ∨ ¬ (r.index = 0 ∧ r.length = 0) then s.dev else if r.value &&& 0x7F = 0 then .dflt else .addressed := by
  simp only [setAddress] at h
  split at h
  · rename_i hz
    split at h
    · rename_i hc
      have k := keeps_error t h
      exact ⟨k.old, k.config, k.log, by rw [k.dev, if_pos (.inl hc)]⟩
    · rename_i hc
      cases hs : ctlSendStatus c s with
      | error => rw [hs] at h; cases h
      | ok u =>
        rw [hs] at h; cases h
        have k := keeps_status u hs
        refine ⟨k.old, k.config, k.log, ?_⟩
        have hn : ¬ (s.dev = .configured ∨ ¬ (r.index = 0 ∧ r.length = 0)) := by rintro (h | h); exact hc h; exact h hz
        rw [if_neg hn]
        by_cases hv : r.value &&& 0x7F = 0
        · simp [hv]
        · simp [hv]
  · rename_i hz
    have k := keeps_error t h
    exact ⟨k.old, k.config, k.log, by rw [k.dev, if_pos (.inr hz)]⟩

/-- The device state after SET_CONFIGURATION. -/
theorem config_dev {c : Cfg} {s t : St} {r : Req} (h : setConfig c s r = .ok t) :
    t.old = s.old ∧ ((s.dev = .configured → s.config = 1) → t.dev = .configured → t.config = 1) ∧
      (lo r.value ≠ 1 → t.log.countP used = s.log.countP used) ∧
      (t.log.countP used > s.log.countP used → t.dev = .configured) ∧
      t.dev = if s.dev = .addressed ∨ s.dev = .configured then
          if lo r.value = 0 then .addressed else if lo r.value = 1 then .configured else s.dev
        else s.dev := by
  have n0 : lo r.value = 0 ↔ (lo r.value).toNat = 0 := ⟨fun e => by rw [e]; rfl, fun e => UInt8.toNat_inj.mp e⟩
  have n1 : lo r.value = 1 ↔ (lo r.value).toNat = 1 := ⟨fun e => by rw [e]; rfl, fun e => UInt8.toNat_inj.mp e⟩
  have ini (k : St) : (classInit k).log.countP used = k.log.countP used + 1 := List.countP_cons_of_pos (by decide)
  simp only [setConfig] at h
  by_cases hi : (lo r.value).toNat > 1
  · rw [if_pos hi] at h
    have k := keeps_error t h
    have g0 : ¬ lo r.value = 0 := by rw [n0]; omega
    have g1 : ¬ lo r.value = 1 := by rw [n1]; omega
    refine ⟨k.old, fun hc hd => by rw [k.config]; exact hc (k.dev ▸ hd), fun _ => k.log, fun hl => by rw [k.log] at hl; omega, ?_⟩
    simp [g0, g1, k.dev]
  rw [if_neg hi] at h
  cases hd : s.dev with
  | addressed =>
    rw [hd] at h
    simp only at h
    by_cases h0 : (lo r.value).toNat = 0
    · rw [if_neg (by omega)] at h
      have k := keeps_status t h
      refine ⟨k.old, (fun _ hx => ?_), fun _ => k.log, fun hl => by rw [k.log] at hl; omega, ?_⟩
      · rw [k.dev, hd] at hx; cases hx
      · simp [n0.mpr h0, k.dev, hd]
    · rw [if_pos h0] at h
      have k := keeps_status t h
      have e1 : (lo r.value).toNat = 1 := by omega
      refine ⟨k.old, (fun _ _ => by rw [k.config]; exact e1), fun g => absurd (n1.mpr e1) g, fun _ => k.dev, ?_⟩
      rw [k.dev, if_pos (by simp), if_neg (by rw [n0]; omega), if_pos (n1.mpr e1)]; rfl
  | configured =>
    rw [hd] at h
    simp only at h
    by_cases h0 : (lo r.value).toNat = 0
    · rw [if_pos h0] at h
      have k := keeps_status t h
      refine ⟨k.old, (fun _ hx => ?_), fun _ => k.log, fun hl => ?_, ?_⟩
      · rw [k.dev] at hx; cases hx
      · have := k.log
        have hl : t.log.countP used > s.log.countP used := hl
        have : t.log.countP used = s.log.countP used := this
        omega
      · rw [k.dev, if_pos (by simp), if_pos (n0.mpr h0)]
    · rw [if_neg h0] at h
      have e1 : (lo r.value).toNat = 1 := by omega
      by_cases hc : (lo r.value).toNat ≠ s.config
      · rw [if_pos hc] at h
        have k := keeps_status t h
        have kd : t.dev = .configured := by rw [k.dev]; rfl
        refine ⟨k.old, (fun _ _ => by rw [k.config]; exact e1), fun g => absurd (n1.mpr e1) g, fun _ => kd, ?_⟩
        rw [kd, if_pos (by simp), if_neg (by rw [n0]; omega), if_pos (n1.mpr e1)]
      · rw [if_neg hc] at h
        have k := keeps_status t h
        have kd : t.dev = .configured := k.dev.trans hd
        refine ⟨k.old, (fun hq _ => by rw [k.config]; exact hq rfl), fun _ => k.log, fun _ => kd, ?_⟩
        rw [kd, if_pos (by simp), if_neg (by rw [n0]; omega), if_pos (n1.mpr e1)]
  | _ =>
    rw [hd] at h
    have k := keeps_error t h
    refine ⟨k.old, (fun _ hx => ?_), fun _ => k.log, fun hl => by rw [k.log] at hl; omega, ?_⟩
    · rw [k.dev, hd] at hx; cases hx
    · rw [k.dev, hd]; simp

/-- Bytes and fields. -/
theorem address_bits (v : UInt16) : v &&& 0x7F = 0 ↔ lo v &&& 0x7F = 0 := by
  rw [← UInt16.toNat_inj, ← UInt8.toNat_inj]
  simp only [lo, UInt16.toNat_and, UInt8.toNat_and, UInt16.toNat_toUInt8]
  rw [show (0x7F : UInt16).toNat = 2 ^ 7 - 1 from rfl, show (0x7F : UInt8).toNat = 2 ^ 7 - 1 from rfl, Nat.and_two_pow_sub_one_eq_mod,
    Nat.and_two_pow_sub_one_eq_mod]
  show v.toNat % 2 ^ 7 = 0 ↔ v.toNat % 2 ^ 8 % 2 ^ 7 = 0
  omega

theorem zero_word (v : UInt16) : v = 0 ↔ lo v = 0 ∧ hi v = 0 := by
  constructor
  · rintro rfl; exact ⟨rfl, rfl⟩
  · rintro ⟨h1, h2⟩
    rw [← word_packet v, h1, h2]; rfl

/-- The level as a value of `dev_state`. -/
def lv : Level → Dev
  | .default => .dflt
  | .address => .addressed
  | .configured => .configured

theorem lv_conf {l : Level} : lv l = .configured ↔ l = .configured := by cases l <;> simp [lv]

/-- What a SETUP packet does to the state. -/
theorem setup_dev {c : Cfg} {s t : St} {p : Bytes} {tick : Nat} {l : Level} (hp : p.length = 8) (hd : s.dev = lv l)
    (h : step c s (.setup p tick) = .ok t) :
    t.old = s.old ∧ ((s.dev = .configured → s.config = 1) → t.dev = .configured → t.config = 1) ∧
      t.dev = lv (level l (.setup p tick)) ∧
      (t.log.countP used > s.log.countP used → t.dev = .configured) ∧
      (toDevice p ≠ some (9, 1) → t.log.countP used = s.log.countP used) := by
  obtain ⟨r, e, rfl⟩ := parse_eight hp
  simp only [step, e, ok_bind] at h
  have hb : Keep s (began s r.length) := ⟨rfl, rfl, rfl, rfl⟩
  have td : toDevice (packet r.bm r.br r.value r.index r.length) =
      if r.bm &&& 0x1F = 0 ∧ r.bm ≠ 0xC0 then some (r.br, lo r.value) else none := rfl
  have hlv : level l (.setup (packet r.bm r.br r.value r.index r.length) tick) =
      if r.bm &&& 0x1F = 0 ∧ r.bm ≠ 0xC0 then
        if r.br = 5 then if l = .configured ∨ ¬ (r.index = 0 ∧ r.length = 0) then l else if lo r.value &&& 0x7F = 0 then .default else .address
        else if r.br = 9 then if l = .default then l else if lo r.value = 0 then .address else if lo r.value = 1 then .configured else l
        else l
      else l := by
    simp only [level, td]
    by_cases hh : r.bm &&& 0x1F = 0 ∧ r.bm ≠ 0xC0
    · rw [if_pos hh, if_pos hh]
      have hz : (packet r.bm r.br r.value r.index r.length).drop 4 ≠ [0, 0, 0, 0] ↔ ¬ (r.index = 0 ∧ r.length = 0) := by
        simp only [packet, List.drop_succ_cons, List.drop_zero, zero_word r.index, zero_word r.length]
        simp [and_assoc]
      simp only [hz]
    · rw [if_neg hh, if_neg hh]
  rw [hlv]
  clear hlv
  have same (L : Level) : Keep s t → L = l →
      t.old = s.old ∧ ((s.dev = .configured → s.config = 1) → t.dev = .configured → t.config = 1) ∧
      t.dev = lv (L) ∧
      (t.log.countP used > s.log.countP used → t.dev = .configured) ∧
      (toDevice (packet r.bm r.br r.value r.index r.length) ≠ some (9, 1) → t.log.countP used = s.log.countP used) := by
    intro k hl
    exact ⟨k.old, fun hc hx => by rw [k.config]; exact hc (k.dev ▸ hx), by rw [hl, k.dev, hd], fun g => by rw [k.log] at g; omega, fun _ => k.log⟩
  simp only [setupStage] at h
  change (if r.bm = 0xC0 then vendorReq c (began s r.length) r
      else if r.bm &&& 0x1F = 0 then stdDevReq c (began s r.length) r tick
      else if r.bm &&& 0x1F = 1 then stdItfReq c (began s r.length) r tick
      else if r.bm &&& 0x1F = 2 then stdEpReq c (began s r.length) r tick
      else .ok (ctlError (began s r.length))) = .ok t at h
  split at h
  · rename_i h0
    refine same _ (Keeps.from hb keeps_vendor t h) ?_
    rw [if_neg (fun g => g.2 h0)]
  rename_i h0
  split at h
  · rename_i h1
    rw [if_pos (And.intro h1 h0)]
    by_cases h5 : r.br = 5
    · rw [if_pos h5]
      simp only [stdDevReq, h5, show ¬ ((5 : Byte) = 6) from by decide, if_true, if_false] at h
      obtain ⟨a1, a2, a3, a4⟩ := address_dev h
      have a4 : t.dev = if s.dev = .configured ∨ ¬ (r.index = 0 ∧ r.length = 0) then s.dev else if r.value &&& 0x7F = 0 then .dflt else .addressed := a4
      refine ⟨a1, (fun hc hx => ?_), ?_, (fun g => by rw [a3] at g; exact absurd g (Nat.lt_irrefl _)), fun _ => a3⟩
      · rw [a2]
        apply hc
        rw [a4] at hx
        split at hx
        · exact hx
        · split at hx <;> cases hx
      · rw [a4, hd]
        simp only [lv_conf, address_bits]
        split
        · rfl
        · split <;> rfl
    rw [if_neg h5]
    by_cases h9 : r.br = 9
    · rw [if_pos h9]
      simp only [stdDevReq, h9, show ¬ ((9 : Byte) = 6) from by decide, show ¬ ((9 : Byte) = 5) from by decide, if_true, if_false] at h
      obtain ⟨a1, a2, a3, a4, a5⟩ := config_dev h
      refine ⟨a1, a2, ?_, a4, fun hn => a3 ?_⟩
      · rw [a5]
        show (if s.dev = .addressed ∨ s.dev = .configured then
          if lo r.value = 0 then Dev.addressed else if lo r.value = 1 then .configured else s.dev
        else s.dev) = _
        rw [hd]
        cases l <;> simp only [lv, reduceCtorEq, or_self, or_true, true_or, if_true, if_false]
        · split
          · rfl
          · split <;> rfl
        · split
          · rfl
          · split <;> rfl
      · rw [td, if_pos (And.intro h1 h0), h9] at hn
        intro e; rw [e] at hn; exact hn rfl
    · rw [if_neg h9]
      exact same _ (Keeps.from hb (keeps_dev h5 h9) t h) rfl
  rename_i h1
  rw [if_neg (fun g => h1 g.1)]
  split at h
  · exact same _ (Keeps.from hb keeps_itf t h) rfl
  split at h
  · exact same _ (Keeps.from hb keeps_ep t h) rfl
  · exact same _ (Keeps.from hb keeps_error t h) rfl

/-- Without SET_CONFIGURATION(1) the device is not configured by a request. -/
theorem setup_unconfigured {c : Cfg} {s t : St} {p : Bytes} {tick : Nat} (hp : p.length = 8) (hd : s.dev ≠ .configured)
    (hn : toDevice p ≠ some (9, 1)) (h : step c s (.setup p tick) = .ok t) :
    t.old = s.old ∧ t.dev ≠ .configured ∧ t.log.countP used = s.log.countP used := by
  obtain ⟨r, e, rfl⟩ := parse_eight hp
  simp only [step, e, ok_bind] at h
  have hb : Keep s (began s r.length) := ⟨rfl, rfl, rfl, rfl⟩
  have td : toDevice (packet r.bm r.br r.value r.index r.length) =
      if r.bm &&& 0x1F = 0 ∧ r.bm ≠ 0xC0 then some (r.br, lo r.value) else none := rfl
  have same : Keep s t → t.old = s.old ∧ t.dev ≠ .configured ∧ t.log.countP used = s.log.countP used :=
    fun k => ⟨k.old, by rw [k.dev]; exact hd, k.log⟩
  simp only [setupStage] at h
  change (if r.bm = 0xC0 then vendorReq c (began s r.length) r
      else if r.bm &&& 0x1F = 0 then stdDevReq c (began s r.length) r tick
      else if r.bm &&& 0x1F = 1 then stdItfReq c (began s r.length) r tick
      else if r.bm &&& 0x1F = 2 then stdEpReq c (began s r.length) r tick
      else .ok (ctlError (began s r.length))) = .ok t at h
  split at h
  · exact same (Keeps.from hb keeps_vendor t h)
  rename_i h0
  split at h
  · rename_i h1
    by_cases h5 : r.br = 5
    · simp only [stdDevReq, h5, show ¬ ((5 : Byte) = 6) from by decide, if_true, if_false] at h
      obtain ⟨a1, a2, a3, a4⟩ := address_dev h
      refine ⟨a1, ?_, a3⟩
      rw [a4]
      split
      · exact hd
      · split <;> simp
    by_cases h9 : r.br = 9
    · simp only [stdDevReq, h9, show ¬ ((9 : Byte) = 6) from by decide, show ¬ ((9 : Byte) = 5) from by decide, if_true, if_false] at h
      obtain ⟨a1, a2, a3, a4, a5⟩ := config_dev h
      have h1v : lo r.value ≠ 1 := by
        intro e
        rw [td, if_pos (And.intro h1 h0), h9, e] at hn; exact hn rfl
      refine ⟨a1, ?_, a3 h1v⟩
      rw [a5, if_neg h1v]
      split
      · split
        · simp
        · exact hd
      · exact hd
    · exact same (Keeps.from hb (keeps_dev h5 h9) t h)
  split at h
  · exact same (Keeps.from hb keeps_itf t h)
  split at h
  · exact same (Keeps.from hb keeps_ep t h)
  · exact same (Keeps.from hb keeps_error t h)

theorem keeps_in {c : Cfg} {s : St} : Keeps s (dataInStage c s) := by
  simp only [dataInStage]
  split
  · exact keeps_ok ⟨rfl, rfl, rfl, rfl⟩
  split
  · refine Keeps.bind (Keeps.from (k := { s with pend := false, inRem := s.inRem - c.mps }) ⟨rfl, rfl, rfl, rfl⟩ keeps_transmit) fun t => ?_
    exact keeps_ok ⟨rfl, rfl, rfl, rfl⟩
  split
  · refine Keeps.bind (Keeps.from (k := { s with pend := false }) ⟨rfl, rfl, rfl, rfl⟩ keeps_transmit) fun t => ?_
    exact keeps_ok ⟨rfl, rfl, rfl, rfl⟩
  · refine keeps_ok ?_
    simp only [ctlReceiveStatus, prepareRx, txSent]
    repeat' split
    all_goals exact ⟨rfl, rfl, rfl, rfl⟩

/-- A data packet of the host is of no interest to a function of a device that is not configured. -/
theorem out_dev {c : Cfg} {s t : St} {d : Bytes} (h : dataOutStage c s d = .ok t) :
    t.dev = s.dev ∧ t.old = s.old ∧ t.config = s.config ∧ (s.dev ≠ .configured → t.log.countP used = s.log.countP used) := by
  have fin : Keep s t → t.dev = s.dev ∧ t.old = s.old ∧ t.config = s.config ∧ (s.dev ≠ .configured → t.log.countP used = s.log.countP used) :=
    fun k => ⟨k.dev, k.old, k.config, fun _ => k.log⟩
  simp only [dataOutStage] at h
  cases hx : s.rx with
  | none => rw [hx] at h; cases h; exact fin (.refl _)
  | some q =>
    obtain ⟨p, n⟩ := q
    have rest (b : Bytes) (q : Option Nat) (h : (if s.e0 ≠ .dataOut then (.ok { s with rx := none, buf := b } : C St)
        else if s.outRem > c.mps then
          .ok (prepareRx { s with rx := none, buf := b, outRem := s.outRem - c.mps } q (min (s.outRem - c.mps) c.mps))
        else ctlSendStatus c (if s.dev = .configured then { s with rx := none, buf := b, web := .process, log := .rxReady :: s.log }
          else { s with rx := none, buf := b })) = .ok t) :
        t.dev = s.dev ∧ t.old = s.old ∧ t.config = s.config ∧ (s.dev ≠ .configured → t.log.countP used = s.log.countP used) := by
      split at h
      · cases h; exact fin ⟨rfl, rfl, rfl, rfl⟩
      split at h
      · cases h; exact fin ⟨rfl, rfl, rfl, rfl⟩
      · split at h
        · rename_i hc
          have k := keeps_status t h
          exact ⟨k.dev, k.old, k.config, fun hn => absurd hc hn⟩
        · exact fin (Keep.trans (s := s) (t := { s with rx := none, buf := b }) ⟨rfl, rfl, rfl, rfl⟩ (keeps_status t h))
    cases p with
    | none => simp only [hx, pure_eq_ok, ok_bind] at h; exact rest _ _ h
    | some off =>
      simp only [hx] at h
      cases hw : wrRange s.buf off (d.take (min n c.mps)) with
      | error => rw [hw] at h; cases h
      | ok b => simp only [hw, pure_eq_ok, ok_bind] at h; exact rest _ _ h

/-- **C83, first part.** Until the host has chosen the configuration, no function of the device is started, and none gets a
packet or a command, whatever else the host does and in whatever order. -/
theorem C83_nothing_before_configuration (c : Cfg) (h : List Op) (hv : ∀ op ∈ h, Possible op)
    (hn : ∀ p tick, .setup p tick ∈ h → toDevice p ≠ some (9, 1)) (s : St) (hs : run c St.init h = .ok s) :
    s.dev ≠ .configured ∧ ∀ e ∈ s.log, used e = false := by
  suffices H : ∀ (h : List Op) (s t : St), (∀ op ∈ h, Possible op) → (∀ p tick, .setup p tick ∈ h → toDevice p ≠ some (9, 1)) →
      s.dev ≠ .configured → s.old ≠ .configured → s.log.countP used = 0 → run c s h = .ok t → t.dev ≠ .configured ∧ t.log.countP used = 0 by
    obtain ⟨h1, h2⟩ := H h St.init s hv hn (fun x => nomatch x) (fun x => nomatch x) rfl hs
    refine ⟨h1, fun e he => ?_⟩
    have := List.countP_eq_zero.mp h2 e he
    simpa using this
  intro h
  induction h with
  | nil => intro s t _ _ h1 h2 h3 e; cases e; exact ⟨h1, h3⟩
  | cons op h ih =>
    intro s t hv hn h1 h2 h3 e
    rw [run] at e
    cases hu : step c s op with
    | error => rw [hu] at e; cases e
    | ok u =>
      rw [hu, ok_bind] at e
      have next : u.dev ≠ .configured → u.old ≠ .configured → u.log.countP used = 0 → t.dev ≠ .configured ∧ t.log.countP used = 0 :=
        fun g1 g2 g3 => ih u t (fun o ho => hv o (.tail _ ho)) (fun p k hm => hn p k (.tail _ hm)) g1 g2 g3 e
      have keep : Keep s u → t.dev ≠ .configured ∧ t.log.countP used = 0 :=
        fun k => next (by rw [k.dev]; exact h1) (by rw [k.old]; exact h2) (by rw [k.log]; exact h3)
      cases op with
      | setup p tick =>
        obtain ⟨g1, g2, g3⟩ := setup_unconfigured (hv _ (.head _)) h1 (hn p tick (.head _)) hu
        exact next g2 (by rw [g1]; exact h2) (by rw [g3]; exact h3)
      | taken =>
        simp only [step] at hu
        split at hu
        · exact keep (keeps_in u hu)
        · cases hu; exact keep (.refl _)
      | out d =>
        obtain ⟨g1, g2, g3, g4⟩ := out_dev hu
        exact next (by rw [g1]; exact h1) (by rw [g2]; exact h2) (by rw [g4 h1]; exact h3)
      | epIn n => simp only [step, if_neg h1] at hu; cases hu; exact keep (.refl _)
      | epOut n => simp only [step, if_neg h1] at hu; cases hu; exact keep (.refl _)
      | reset => cases hu; exact next (by simp) h2 h3
      | suspend => cases hu; exact next (by simp) h1 h3
      | resume => cases hu; exact next h2 h2 h3
      | disconnect => cases hu; exact next (by simp) h2 h3
      | write off d =>
        simp only [step] at hu
        cases hw : wrRange s.buf off d with
        | error => rw [hw] at hu; cases hu
        | ok b => rw [hw] at hu; cases hu; exact keep ⟨rfl, rfl, rfl, rfl⟩
      | acquire o => cases hu; exact keep ⟨rfl, rfl, rfl, rfl⟩
      | release o => cases hu; exact keep ⟨rfl, rfl, rfl, rfl⟩
      | webDone r =>
        simp only [step] at hu
        split at hu
        · cases hw : wrRange s.buf 0 r with
          | error => rw [hw] at hu; cases hu
          | ok b => rw [hw] at hu; cases hu; exact keep ⟨rfl, rfl, rfl, rfl⟩
        · cases hu; exact keep (.refl _)
      | webTimeout tick =>
        simp only [step] at hu
        split at hu <;> cases hu
        · exact keep ⟨rfl, rfl, rfl, rfl⟩
        · exact keep (.refl _)

/-- The state agrees with what the host can expect. -/
structure Agrees (l : Level) (b : Bool) (s : St) : Prop where
  up : b = false → s.dev = lv l
  down : b = true → s.dev = .suspended ∧ s.old = lv l
  config : l = .configured → s.config = 1

theorem agrees_step {c : Cfg} {s t : St} {op : Op} {l : Level} {b b' : Bool} (h : Agrees l b s) (hv : Possible op) (hb : bus b op = some b')
    (e : step c s op = .ok t) : Agrees (level l op) b' t ∧ (t.log.countP used > s.log.countP used → level l op = .configured) := by
  have keep (h0 : bus b op = some b → True) (k : Keep s t) (hb' : b' = b) (hl : level l op = l) :
      Agrees (level l op) b' t ∧ (t.log.countP used > s.log.countP used → level l op = .configured) := by
    subst hb'
    rw [hl]
    exact ⟨⟨fun x => by rw [k.dev]; exact h.up x, fun x => by rw [k.dev, k.old]; exact h.down x, fun x => by rw [k.config]; exact h.config x⟩,
      fun g => by rw [k.log] at g; exact absurd g (Nat.lt_irrefl _)⟩
  cases op with
  | setup p tick =>
    cases b with
    | true => cases hb
    | false =>
      cases hb
      have hd := h.up rfl
      obtain ⟨g1, g2, g3, g4, _⟩ := setup_dev hv hd e
      refine ⟨⟨fun _ => g3, (fun x => nomatch x), fun x => g2 ?_ ?_⟩, fun g => ?_⟩
      · intro x; exact h.config (lv_conf.mp (hd.symm.trans x))
      · rw [g3, x]; rfl
      · have := g4 g
        rw [g3, lv_conf] at this; exact this
  | taken =>
    cases b with
    | true => cases hb
    | false =>
      cases hb
      simp only [step] at e
      split at e
      · exact keep (fun _ => trivial) (keeps_in t e) rfl rfl
      · cases e; exact keep (fun _ => trivial) (.refl _) rfl rfl
  | out d =>
    cases b with
    | true => cases hb
    | false =>
      cases hb
      obtain ⟨g1, g2, g3, g4⟩ := out_dev e
      refine ⟨⟨fun x => by rw [g1]; exact h.up x, (fun x => nomatch x), fun x => by rw [g3]; exact h.config x⟩, fun g => ?_⟩
      show l = .configured
      apply Classical.byContradiction
      intro hl
      rw [g4 (by rw [h.up rfl]; intro x; exact hl (lv_conf.mp x))] at g
      exact absurd g (Nat.lt_irrefl _)
  | epIn n =>
    cases b with
    | true => cases hb
    | false =>
      cases hb
      simp only [step] at e
      split at e
      · rename_i hc
        have hl : l = .configured := lv_conf.mp ((h.up rfl).symm.trans hc)
        split at e <;> cases e
        · exact ⟨⟨h.up, h.down, h.config⟩, fun _ => hl⟩
        · exact ⟨h, fun _ => hl⟩
      · cases e; exact keep (fun _ => trivial) (.refl _) rfl rfl
  | epOut n =>
    cases b with
    | true => cases hb
    | false =>
      cases hb
      simp only [step] at e
      split at e
      · rename_i hc
        have hl : l = .configured := lv_conf.mp ((h.up rfl).symm.trans hc)
        split at e <;> cases e
        · exact ⟨⟨h.up, h.down, h.config⟩, fun _ => hl⟩
        · exact ⟨h, fun _ => hl⟩
      · cases e; exact keep (fun _ => trivial) (.refl _) rfl rfl
  | reset =>
    cases b with
    | true => cases hb
    | false =>
      cases hb; cases e
      exact ⟨⟨fun _ => rfl, (fun x => nomatch x), fun x => nomatch x⟩, fun g => absurd g (Nat.lt_irrefl _)⟩
  | suspend =>
    cases b with
    | true => cases hb
    | false =>
      cases hb; cases e
      exact ⟨⟨(fun x => nomatch x), (fun _ => ⟨rfl, h.up rfl⟩), h.config⟩, fun g => absurd g (Nat.lt_irrefl _)⟩
  | resume =>
    cases b with
    | false => cases hb
    | true =>
      cases hb; cases e
      exact ⟨⟨(fun _ => (h.down rfl).2), (fun x => nomatch x), h.config⟩, fun g => absurd g (Nat.lt_irrefl _)⟩
  | disconnect =>
    cases b with
    | true => cases hb
    | false =>
      cases hb; cases e
      exact ⟨⟨fun _ => rfl, (fun x => nomatch x), fun x => nomatch x⟩, fun g => absurd g (Nat.lt_irrefl _)⟩
  | write off d =>
    cases hb
    simp only [step] at e
    cases hw : wrRange s.buf off d with
    | error => rw [hw] at e; cases e
    | ok x => rw [hw] at e; cases e; exact keep (fun _ => trivial) ⟨rfl, rfl, rfl, rfl⟩ rfl rfl
  | acquire o => cases hb; cases e; exact keep (fun _ => trivial) ⟨rfl, rfl, rfl, rfl⟩ rfl rfl
  | release o => cases hb; cases e; exact keep (fun _ => trivial) ⟨rfl, rfl, rfl, rfl⟩ rfl rfl
  | webDone r =>
    cases hb
    simp only [step] at e
    split at e
    · cases hw : wrRange s.buf 0 r with
      | error => rw [hw] at e; cases e
      | ok x => rw [hw] at e; cases e; exact keep (fun _ => trivial) ⟨rfl, rfl, rfl, rfl⟩ rfl rfl
    · cases e; exact keep (fun _ => trivial) (.refl _) rfl rfl
  | webTimeout tick =>
    cases hb
    simp only [step] at e
    split at e <;> cases e
    · exact keep (fun _ => trivial) ⟨rfl, rfl, rfl, rfl⟩ rfl rfl
    · exact keep (fun _ => trivial) (.refl _) rfl rfl

theorem agrees_run {c : Cfg} {h : List Op} : ∀ {s t : St} {l l' : Level} {b b' : Bool}, Agrees l b s → (∀ op ∈ h, Possible op) →
    track (l, b) h = some (l', b') → run c s h = .ok t → Agrees l' b' t := by
  induction h with
  | nil => intro s t l l' b b' ha _ ht e; cases ht; cases e; exact ha
  | cons op h ih =>
    intro s t l l' b b' ha hv ht e
    rw [run] at e
    cases hu : step c s op with
    | error => rw [hu] at e; cases e
    | ok u =>
      rw [hu, ok_bind] at e
      simp only [track] at ht
      cases hb : bus b op with
      | none => rw [hb] at ht; cases ht
      | some b1 =>
        rw [hb] at ht
        exact ih (agrees_step ha (hv op (.head _)) hb hu).1 (fun o ho => hv o (.tail _ ho)) ht e

theorem agrees_init : Agrees .default false St.init := ⟨fun _ => rfl, (fun x => nomatch x), fun x => nomatch x⟩

/-- **C83, second part.** The device is in the state that the host has brought it into, and a function of the device is started or used only in
the configured state. Missing: buses on which a reset comes without the end of the suspension that it implies, or a second suspension is reported
(`C83_reset_refuted`, `C83_suspend_refuted`); requests that only look like SET_CONFIGURATION (`C83_type_refuted`) are part of `level`. -/
theorem C83_state_partial (c : Cfg) (h : List Op) (hv : ∀ op ∈ h, Possible op) (s : St) (hs : run c St.init h = .ok s) (l : Level) (b : Bool)
    (ht : track (.default, false) h = some (l, b)) :
    (if b then s.dev = .suspended ∧ s.old = lv l else s.dev = lv l) ∧
    ∀ op b' t, Possible op → bus b op = some b' → step c s op = .ok t → t.log.countP used > s.log.countP used → level l op = .configured := by
  have ha := agrees_run agrees_init hv ht hs
  refine ⟨?_, fun op b' t hv hb e g => (agrees_step ha hv hb e).2 g⟩
  cases b with
  | true => simpa using ha.down rfl
  | false => simpa using ha.up rfl

/-- **C83, third part.** GET_CONFIGURATION tells the host what it has chosen. -/
theorem C83_get_configuration_partial (c : Cfg) (hmps : 0 < c.mps) (htab : Tables c) (h : List Op) (hv : ∀ op ∈ h, Possible op) (s : St)
    (hs : run c St.init h = .ok s) (l : Level) (hl : l ≠ .default) (ht : track (.default, false) h = some (l, false)) (tick : Nat) :
    ∃ t, run c s [.setup (packet 0x80 8 0 0 1) tick] = .ok t ∧ sent t.log = sent s.log ++ [[if l = .configured then 1 else 0]] := by
  have ha := agrees_run agrees_init hv ht hs
  obtain ⟨s', e, hi⟩ := fine_run (inv_init c) hv
  rw [hs] at e; cases e
  have hd := ha.up rfl
  have hp (b : Byte) : (packets c.mps ([b].take 1) 1).take 1 = [[b]] := by
    have : chunks c.mps [b] = [[b]] := by
      rw [chunks_cons hmps (by simp), List.drop_eq_nil_of_le (by simp; omega), chunks_nil, List.take_of_length_le (by simp; omega)]
    simp [packets, this]
  have key (b : Byte) (hh : Has c s 0x80 8 0 0 [b]) (hb : b = if l = .configured then 1 else 0) :
      ∃ t, run c s [.setup (packet 0x80 8 0 0 1) tick] = .ok t ∧ sent t.log = sent s.log ++ [[if l = .configured then 1 else 0]] := by
    obtain ⟨t, e, g, _⟩ := C80_transfer_partial (l := 1) (tick := tick) (h := []) hmps htab hi.len (by decide) hh (by simp) (by simp) (by simp) (by simp)
    refine ⟨t, e, ?_⟩
    rw [g, ← hb]
    exact congrArg (sent s.log ++ ·) (hp b)
  cases l with
  | default => exact absurd rfl hl
  | address => exact key 0 (.unconfigured hd) rfl
  | configured =>
    refine key (UInt8.ofNat s.config) (.configuration hd) ?_
    rw [ha.config rfl]; rfl

end Verif.Usb
