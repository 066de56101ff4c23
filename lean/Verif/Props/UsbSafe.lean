import Verif.Props.Usb
/-
C84: the control endpoint reads and writes only where it may.
-/
namespace Verif.Usb
open Verif.Spec.Usb

/-- `p` announces a WebUSB command of `n` bytes. -/
def Announces (c : Cfg) (p : Bytes) (n : Nat) : Prop :=
  ∃ bm v l, p = packet bm 0 v (wideByte c.ifWeb) l ∧ bm &&& 0x1F = 1 ∧ l.toNat = n

/-- The size of what is behind a pointer. -/
def srcLen : Src → Nat
  | .const d => d.length
  | .shared => 1342

structure Inv (c : Cfg) (last : Option Bytes) (s : St) : Prop where
  len : s.buf.length = 1342
  size : s.webSize ≤ 1342
  tx : s.e0 = .dataIn → s.inRem > c.mps → s.inOff + (s.inRem - c.mps) ≤ srcLen s.inSrc
  rx : ∀ off n, s.rx = some (some off, n) → n ≤ s.outRem ∧ off + s.outRem ≤ s.webSize ∧ s.webSize ≤ 1340 ∧ s.web = .recving ∧
    s.owner = WebUsb.ownerWeb ∧ ∃ p, last = some p ∧ Announces c p s.webSize

/-- The result of a function: no undefined behaviour, and the invariant. -/
def Fine (c : Cfg) (last : Option Bytes) (x : C St) : Prop := ∃ t, x = .ok t ∧ Inv c last t

theorem Fine.bind {c : Cfg} {last : Option Bytes} {x : C St} {f : St → C St} (hx : Fine c last x) (hf : ∀ t, Inv c last t → Fine c last (f t)) :
    Fine c last (x >>= f) := by
  obtain ⟨t, rfl, ht⟩ := hx
  exact hf t ht

theorem rdSrc_ok {s : St} {p : Src} {off n : Nat} (hb : s.buf.length = 1342) (h : off + n ≤ srcLen p) : ∃ d, rdSrc s p off n = .ok d := by
  cases p with
  | const d => exact ⟨_, rdRange_ok h⟩
  | shared => exact ⟨_, rdRange_ok (by rw [hb]; exact h)⟩

theorem fine_send' {c : Cfg} {last : Option Bytes} {s : St} {p : Src} {n : Nat} (h : Inv c last s) (hn : n ≤ srcLen p) :
    ∃ t, ctlSendData c s p n = .ok t ∧ Inv c last t ∧ t.rx = s.rx := by
  obtain ⟨d, e⟩ := rdSrc_ok (s := { s with e0 := .dataIn, inTotal := n, inRem := n }) (p := p) (off := 0) (n := min n c.mps) h.len (by omega)
  simp only [ctlSendData, transmit, e, ok_bind, pure_eq_ok]
  refine ⟨_, rfl, ⟨h.len, h.size, ?_, h.rx⟩, rfl⟩
  intro _ (hr : n > c.mps)
  show 0 + min n c.mps + (n - c.mps) ≤ srcLen p
  omega

theorem fine_send {c : Cfg} {last : Option Bytes} {s : St} {p : Src} {n : Nat} (h : Inv c last s) (hn : n ≤ srcLen p) :
    Fine c last (ctlSendData c s p n) := by
  obtain ⟨t, e, ht, _⟩ := fine_send' (c := c) h hn
  exact ⟨t, e, ht⟩

theorem fine_status {c : Cfg} {last : Option Bytes} {s : St} (h : Inv c last s) : Fine c last (ctlSendStatus c s) := by
  have e (t : St) : rdSrc t (.const []) 0 (min 0 c.mps) = .ok [] := by simp [rdSrc, rdRange]
  simp only [ctlSendStatus, transmit, e, ok_bind, pure_eq_ok]
  exact ⟨_, rfl, ⟨h.len, h.size, (fun h => nomatch h), h.rx⟩⟩

theorem fine_error {c : Cfg} {last : Option Bytes} {s : St} (h : Inv c last s) : Fine c last (.ok (ctlError s)) :=
  ⟨_, rfl, ⟨h.len, h.size, h.tx, h.rx⟩⟩

theorem fine_ok {c : Cfg} {last : Option Bytes} {s : St} (h : Inv c last s) : Fine c last (.ok s) := ⟨_, rfl, h⟩

theorem inv_compose {c : Cfg} {last : Option Bytes} {s : St} {d : Bytes} (h : Inv c last s) (hd : d.length ≤ 1342) :
    Inv c last { s with buf := d ++ s.buf.drop d.length } :=
  ⟨compose_len h.len hd, h.size, h.tx, h.rx⟩

theorem fine_sendDesc {c : Cfg} {last : Option Bytes} {s : St} {p : Src} {n : Nat} {r : Req} (h : Inv c last s) (hn : n ≤ srcLen p) :
    Fine c last (sendDesc c s p n r) := by
  simp only [sendDesc]
  split
  · exact fine_send h (by omega)
  · exact fine_ok h

theorem fine_descriptor {c : Cfg} {last : Option Bytes} {s : St} {r : Req} (h : Inv c last s) : Fine c last (getDescriptor c s r) := by
  have hstr (x : List Char) (hx : x.length * 2 + 2 ≤ 1342) :
      Fine c last ((do
        let s ← compose s (stringDesc x)
        pure (some (s, Src.shared, x.length * 2 + 2)) : C _) >>= fun o => match o with
          | none => (pure (ctlError s) : C St)
          | some (s, p, len) => sendDesc c s p len r) := by
    have hd : (stringDesc x).length ≤ 1342 := by rw [stringDesc_length]; exact hx
    rw [compose_ok h.len hd]
    exact fine_sendDesc (inv_compose h hd) hx
  simp only [getDescriptor, Usb.descriptor]
  by_cases t1 : hi r.value = 0x0F
  · simp only [t1, if_true]
    have hd : (bosDesc c).length ≤ 1342 := by simp [bosDesc]
    rw [compose_ok h.len hd]
    simp only [ok_bind, pure_eq_ok]
    exact fine_sendDesc (inv_compose h hd) hd
  by_cases t2 : hi r.value = 1
  · simp only [t2, show ¬ ((1 : Byte) = 0x0F) from by decide, if_true, if_false, ok_bind, pure_eq_ok]
    exact fine_sendDesc h (Nat.le_refl _)
  by_cases t3 : hi r.value = 2
  · simp only [t3, show ¬ ((2 : Byte) = 0x0F) from by decide, show ¬ ((2 : Byte) = 1) from by decide, if_true, if_false, configDesc_eq]
    have hd : (configuration c).length ≤ 1342 := by rw [configuration_length]; split <;> decide
    simp only [ok_bind]
    rw [compose_ok h.len hd]
    simp only [ok_bind, pure_eq_ok]
    exact fine_sendDesc (inv_compose h hd) (by decide)
  by_cases t4 : hi r.value = 3
  · simp only [t4, show ¬ ((3 : Byte) = 0x0F) from by decide, show ¬ ((3 : Byte) = 1) from by decide, show ¬ ((3 : Byte) = 2) from by decide,
      if_true, if_false]
    by_cases i0 : lo r.value = 0
    · simp only [i0, if_true, ok_bind, pure_eq_ok]
      exact fine_sendDesc h (Nat.le_refl _)
    by_cases i1 : lo r.value = 1
    · simp only [i1, show ¬ ((1 : Byte) = 0) from by decide, if_true, if_false]
      exact hstr _ (by decide)
    by_cases i2 : lo r.value = 2
    · simp only [i2, show ¬ ((2 : Byte) = 0) from by decide, show ¬ ((2 : Byte) = 1) from by decide, if_true, if_false]
      exact hstr _ (by decide)
    by_cases i3 : lo r.value = 3
    · simp only [i3, show ¬ ((3 : Byte) = 0) from by decide, show ¬ ((3 : Byte) = 1) from by decide, show ¬ ((3 : Byte) = 2) from by decide,
        if_true, if_false]
      exact hstr _ (by simp [serialStr, hexByte])
    simp only [i0, i1, i2, i3, if_false]
    cases hu : userStr (lo r.value) with
    | none => exact fine_sendDesc (p := .const []) (n := 0) (r := r) h (Nat.zero_le _)
    | some x =>
      refine hstr x ?_
      simp only [userStr] at hu
      split at hu
      · cases hu; decide
      split at hu
      · cases hu; decide
      split at hu
      · cases hu; decide
      split at hu
      · cases hu; decide
      cases hu
  · simp only [t1, t2, t3, t4, if_false, pure_eq_ok, ok_bind]
    exact fine_error h

theorem fine_vendor {c : Cfg} {last : Option Bytes} {s : St} {r : Req} (h : Inv c last s) : Fine c last (vendorReq c s r) := by
  simp only [vendorReq]
  split
  · split
    · exact fine_sendDesc h (Nat.le_refl _)
    · exact fine_error h
  split
  · split
    · exact fine_sendDesc h (Nat.le_refl _)
    · exact fine_error h
  exact fine_error h

theorem fine_hid {c : Cfg} {last : Option Bytes} {s : St} {r : Req} {a b : Bytes} {f : St → Nat → St} (h : Inv c last s)
    (hf : ∀ n, Inv c last (f s n)) : Fine c last (hidSetup c s r a b f) := by
  simp only [hidSetup]
  split
  · split
    · exact fine_ok (hf _)
    · exact fine_error h
  split
  · split
    · split
      · exact fine_send h (Nat.min_le_left _ _)
      split
      · exact fine_send h (Nat.min_le_left _ _)
      exact fine_error h
    · exact fine_error h
  exact fine_ok h

theorem fine_web {c : Cfg} {last : Option Bytes} {s : St} {r : Req} {tick : Nat} (h : Inv c last s) (hrx : s.rx = none)
    (ha : r.br = 0 → ∃ p, last = some p ∧ Announces c p r.length.toNat) : Fine c last (webSetup c s r tick) := by
  have hk : Inv c last { s with keep := tick } := ⟨h.len, h.size, h.tx, h.rx⟩
  simp only [webSetup]
  split
  · rename_i h0
    split
    · exact fine_error hk
    split
    · refine fine_error ⟨h.len, h.size, h.tx, ?_⟩
      intro off n e
      rw [hrx] at e; cases e
    · rename_i hown
      split
      · refine fine_error ⟨h.len, h.size, h.tx, ?_⟩
        intro off n e
        rw [hrx] at e; cases e
      · rename_i hlen
        refine ⟨_, rfl, ⟨h.len, by show r.length.toNat ≤ 1342; omega, (fun e => nomatch e), ?_⟩⟩
        rintro off n ⟨⟩
        refine ⟨Nat.le_refl _, ?_, by show r.length.toNat ≤ 1340; omega, rfl, ?_, ha h0⟩
        · show 0 + r.length.toNat ≤ r.length.toNat; omega
        · show Apdu.acquireCas s.owner WebUsb.ownerWeb = WebUsb.ownerWeb
          revert hown
          simp [Apdu.acquireRead]
  split
  · split
    · obtain ⟨t, e, ht, hx⟩ := fine_send' (c := c) (p := .shared) (n := min s.webSize r.length.toNat) hk (by
        show min s.webSize r.length.toNat ≤ 1342
        have := h.size; omega)
      rw [e, ok_bind]
      refine ⟨_, rfl, ⟨ht.len, ht.size, ht.tx, ?_⟩⟩
      intro off n e
      rw [show t.rx = none from hx.trans hrx] at e; cases e
    · exact fine_error hk
  split
  · exact fine_send hk (Nat.le_refl _)
  exact fine_error hk

theorem fine_class {c : Cfg} {last : Option Bytes} {s : St} {r : Req} {tick : Nat} (h : Inv c last s) (hrx : s.rx = none)
    (ha : r.bm &&& 3 = 1 → r.index = wideByte c.ifWeb → r.br = 0 → ∃ p, last = some p ∧ Announces c p r.length.toNat) :
    Fine c last (classSetup c s r tick) := by
  simp only [classSetup]
  split
  · exact fine_hid h fun n => ⟨h.len, h.size, h.tx, h.rx⟩
  split
  · exact fine_hid h fun n => ⟨h.len, h.size, h.tx, h.rx⟩
  split
  · rename_i hw
    exact fine_web h hrx (ha hw.1 hw.2)
  · exact fine_error h

/-- The recipient of a request to the device or to an endpoint is not an interface. -/
theorem bits_dev : ∀ b : Byte, b &&& 0x1F = 0 → ¬ b &&& 3 = 1 := by decide +kernel
theorem bits_ep : ∀ b : Byte, b &&& 0x1F = 2 → ¬ b &&& 3 = 1 := by decide +kernel

theorem fine_feature {c : Cfg} {last : Option Bytes} {s : St} {r : Req} {tick : Nat} {w : Bool} (h : Inv c last s) (hrx : s.rx = none)
    (hb : ¬ r.bm &&& 3 = 1) :
    Fine c last (classSetup c { s with wakeup := w } r tick >>= fun s => ctlSendStatus c s) := by
  refine Fine.bind (fine_class ⟨h.len, h.size, h.tx, h.rx⟩ hrx fun hb' => absurd hb' hb) ?_
  exact fun t ht => fine_status ht

theorem fine_dev {c : Cfg} {last : Option Bytes} {s : St} {r : Req} {tick : Nat} (h : Inv c last s) (hrx : s.rx = none)
    (hb : ¬ r.bm &&& 3 = 1) : Fine c last (stdDevReq c s r tick) := by
  have hinv (k : St) (h1 : k.buf = s.buf) (h2 : k.webSize = s.webSize) (h3 : k.e0 = s.e0) (h4 : k.inRem = s.inRem) (h5 : k.inOff = s.inOff)
      (h6 : k.inSrc = s.inSrc) (h7 : k.rx = none) : Inv c last k :=
    ⟨by rw [h1]; exact h.len, by rw [h2]; exact h.size, by rw [h3, h4, h5, h6]; exact h.tx, by intro o n e; rw [h7] at e; cases e⟩
  simp only [stdDevReq]
  split
  · exact fine_descriptor h
  split
  · simp only [setAddress]
    split
    · split
      · exact fine_error h
      · refine Fine.bind (fine_status h) fun t ht => ?_
        exact fine_ok ⟨ht.len, ht.size, ht.tx, ht.rx⟩
    · exact fine_error h
  split
  · simp only [setConfig]
    split
    · exact fine_error h
    split
    · split
      · exact fine_status (hinv _ rfl rfl rfl rfl rfl rfl hrx)
      · exact fine_status h
    · split
      · exact fine_status (hinv _ rfl rfl rfl rfl rfl rfl hrx)
      split
      · exact fine_status (hinv _ rfl rfl rfl rfl rfl rfl hrx)
      · exact fine_status h
    · exact fine_error h
  split
  · simp only [getConfig]
    split
    · exact fine_error h
    split
    · exact fine_send h (Nat.le_refl _)
    · exact fine_send h (Nat.le_refl _)
    · exact fine_error h
  split
  · simp only [getStatus]
    split
    · exact fine_send h (Nat.le_refl _)
    · exact fine_send h (Nat.le_refl _)
    · exact fine_error h
  split
  · simp only [setFeature]
    split
    · exact fine_feature h hrx hb
    · exact fine_ok h
  split
  · simp only [clrFeature]
    split
    · split
      · exact fine_feature h hrx hb
      · exact fine_ok h
    · split
      · exact fine_feature h hrx hb
      · exact fine_ok h
    · exact fine_error h
  exact fine_error h

theorem fine_itf {c : Cfg} {last : Option Bytes} {s : St} {r : Req} {tick : Nat} (h : Inv c last s) (hrx : s.rx = none)
    (ha : r.index = wideByte c.ifWeb → r.br = 0 → ∃ p, last = some p ∧ Announces c p r.length.toNat) :
    Fine c last (stdItfReq c s r tick) := by
  simp only [stdItfReq]
  split
  · split
    · refine Fine.bind (fine_class h hrx fun _ => ha) fun t ht => ?_
      split
      · exact fine_status ht
      · exact fine_ok ht
    · exact fine_error h
  · exact fine_error h

theorem fine_ep {c : Cfg} {last : Option Bytes} {s : St} {r : Req} {tick : Nat} (h : Inv c last s) (hrx : s.rx = none)
    (hb : ¬ r.bm &&& 3 = 1) : Fine c last (stdEpReq c s r tick) := by
  have hh (l : List Byte) : Inv c last { s with halted := l } := ⟨h.len, h.size, h.tx, h.rx⟩
  have hc (k : St) (hk : Inv c last k) (hx : k.rx = none) : Fine c last (classSetup c k r tick) := fine_class hk hx fun hb' => absurd hb' hb
  simp only [stdEpReq]
  split
  · exact fine_ok h
  split
  · exact hc _ h hrx
  split
  · split
    · split
      · exact fine_ok (hh _)
      · exact fine_ok h
    · refine Fine.bind ?_ fun t ht => fine_status ht
      split
      · exact hc _ (hh _) hrx
      · exact hc _ h hrx
    · exact fine_error h
  split
  · split
    · split
      · exact fine_ok (hh _)
      · exact fine_ok h
    · split
      · split
        · exact Fine.bind (hc _ (hh _) hrx) fun t ht => fine_status ht
        · exact Fine.bind (fine_ok h) fun t ht => fine_status ht
      · exact fine_ok h
    · exact fine_error h
  split
  · split
    · split
      · exact fine_ok (hh _)
      · exact fine_ok h
    · exact fine_send h (Nat.le_refl _)
    · exact fine_error h
  exact fine_ok h

theorem lo_word (a b : Byte) : lo (a.toUInt16 + b.toUInt16 <<< 8) = a := by
  apply UInt8.toNat_inj.mp
  have ha := a.toNat_lt
  have hb := b.toNat_lt
  simp only [lo, UInt16.toNat_toUInt8, UInt16.toNat_add, UInt16.toNat_shiftLeft, UInt8.toNat_toUInt16]
  have e : (8 : UInt16).toNat = 8 := rfl
  rw [e, Nat.shiftLeft_eq]
  have e8 : 2 ^ (8 % 16) = 256 := rfl
  rw [e8]
  omega

theorem hi_word (a b : Byte) : hi (a.toUInt16 + b.toUInt16 <<< 8) = b := by
  apply UInt8.toNat_inj.mp
  have ha := a.toNat_lt
  have hb := b.toNat_lt
  simp only [hi, UInt16.toNat_toUInt8, UInt16.toNat_add, UInt16.toNat_shiftLeft, UInt16.toNat_shiftRight, UInt8.toNat_toUInt16]
  have e : (8 : UInt16).toNat = 8 := rfl
  rw [e, Nat.shiftLeft_eq, Nat.shiftRight_eq_div_pow]
  have e8 : 2 ^ (8 % 16) = 256 := rfl
  rw [e8]
  omega

/-- A packet of eight bytes is a request. -/
theorem parse_eight {p : Bytes} (h : p.length = 8) : ∃ r, parse p = .ok r ∧ p = packet r.bm r.br r.value r.index r.length := by
  match p, h with
  | [a, b, c, d, e, f, g, i], _ =>
    refine ⟨⟨a, b, c.toUInt16 + d.toUInt16 <<< 8, e.toUInt16 + f.toUInt16 <<< 8, g.toUInt16 + i.toUInt16 <<< 8⟩, rfl, ?_⟩
    simp only [packet, lo_word, hi_word]

theorem fine_out {c : Cfg} {last : Option Bytes} {s : St} {d : Bytes} (h : Inv c last s) : Fine c last (dataOutStage c s d) := by
  cases hx : s.rx with
  | none => simp only [dataOutStage, hx]; exact fine_ok h
  | some q =>
    obtain ⟨p, n⟩ := q
    have hd : (d.take (min n c.mps)).length ≤ min n c.mps := by rw [List.length_take]; omega
    have fin (t : St) (h1 : t.buf.length = 1342) (h2 : t.webSize = s.webSize) (h3 : t.rx = none) (h4 : t.e0 = .dataOut) : Inv c last t :=
      ⟨h1, by rw [h2]; exact h.size, (fun e => by rw [h4] at e; cases e), fun o n e => by rw [h3] at e; cases e⟩
    cases p with
    | none =>
      simp only [dataOutStage, hx, ok_bind, pure_eq_ok]
      split
      · exact fine_ok ⟨h.len, h.size, h.tx, fun o n e => nomatch e⟩
      rename_i he
      have he : s.e0 = .dataOut := Classical.not_not.mp he
      split
      · exact fine_ok ⟨h.len, h.size, (fun e => by have := he.symm.trans e; cases this), fun o n e => by
          simp [prepareRx] at e⟩
      · refine fine_status (fin _ ?_ ?_ ?_ ?_) <;> split <;> first | rfl | exact h.len | exact he
    | some off =>
      obtain ⟨g1, g2, g3, g4, g5, g6⟩ := h.rx off n hx
      have hw : off + (d.take (min n c.mps)).length ≤ s.buf.length := by rw [h.len]; omega
      have hl : (s.buf.take off ++ d.take (min n c.mps) ++ s.buf.drop (off + (d.take (min n c.mps)).length)).length = 1342 := by
        have := h.len
        simp only [List.length_append, List.length_take, List.length_drop] at *
        omega
      simp only [dataOutStage, hx, wrRange_ok hw, ok_bind, pure_eq_ok]
      split
      · exact fine_ok ⟨hl, h.size, h.tx, fun o n e => nomatch e⟩
      rename_i he
      have he : s.e0 = .dataOut := Classical.not_not.mp he
      split
      · rename_i hm
        refine fine_ok ⟨hl, h.size, (fun e => ?_), ?_⟩
        · have e : s.e0 = .dataIn := e
          rw [he] at e; cases e
        · rintro o m ⟨⟩
          refine ⟨Nat.min_le_left _ _, ?_, g3, g4, g5, g6⟩
          show off + _ + (s.outRem - c.mps) ≤ s.webSize
          have hm : s.outRem > c.mps := hm
          omega
      · refine fine_status (fin _ ?_ ?_ ?_ ?_) <;> split <;> first | rfl | exact hl | exact he

theorem fine_in {c : Cfg} {last : Option Bytes} {s : St} (h : Inv c last s) : Fine c last (dataInStage c s) := by
  simp only [dataInStage]
  split
  · exact fine_ok ⟨h.len, h.size, h.tx, h.rx⟩
  rename_i he
  have he : s.e0 = .dataIn := Classical.not_not.mp he
  split
  · rename_i hm
    have hm : s.inRem > c.mps := hm
    have ht := h.tx he hm
    obtain ⟨d, e⟩ := rdSrc_ok (s := { s with pend := false, inRem := s.inRem - c.mps }) (p := s.inSrc) (off := s.inOff)
      (n := min (s.inRem - c.mps) c.mps) h.len (by omega)
    simp only [transmit, e, ok_bind, pure_eq_ok]
    refine fine_ok ⟨h.len, h.size, ?_, fun o n e => by simp [prepareRx] at e⟩
    intro _ (hr : s.inRem - c.mps > c.mps)
    show s.inOff + min (s.inRem - c.mps) c.mps + (s.inRem - c.mps - c.mps) ≤ srcLen s.inSrc
    omega
  split
  · rename_i hm _
    have e (t : St) : rdSrc t (.const []) 0 (min 0 c.mps) = .ok [] := by simp [rdSrc, rdRange]
    simp only [transmit, e, ok_bind, pure_eq_ok]
    refine fine_ok ⟨h.len, h.size, (fun _ hr => absurd hr hm), fun o n e => by simp [prepareRx] at e⟩
  · refine fine_ok ⟨?_, ?_, (fun e => by simp [ctlReceiveStatus, prepareRx] at e), fun o n e => by simp [ctlReceiveStatus, prepareRx] at e⟩
    · simp only [ctlReceiveStatus, prepareRx, txSent]
      repeat' split
      all_goals exact h.len
    · simp only [ctlReceiveStatus, prepareRx, txSent]
      repeat' split
      all_goals exact h.size

theorem fine_step {c : Cfg} {last : Option Bytes} {s : St} {op : Op} (h : Inv c last s) (hv : Possible op) :
    Fine c (latest last [op]) (step c s op) := by
  cases op with
  | setup p tick =>
    obtain ⟨r, e, hp⟩ := parse_eight hv
    show Fine c (some p) (step c s (.setup p tick))
    simp only [step, e, ok_bind]
    have hb : Inv c (some p) (began s r.length) := ⟨h.len, h.size, (fun e => nomatch e), fun o n e => nomatch e⟩
    show Fine c (some p) (setupStage c s r tick)
    simp only [setupStage]
    change Fine c (some p) (if r.bm = 0xC0 then vendorReq c (began s r.length) r
      else if r.bm &&& 0x1F = 0 then stdDevReq c (began s r.length) r tick
      else if r.bm &&& 0x1F = 1 then stdItfReq c (began s r.length) r tick
      else if r.bm &&& 0x1F = 2 then stdEpReq c (began s r.length) r tick
      else .ok (ctlError (began s r.length)))
    split
    · exact fine_vendor hb
    split
    · exact fine_dev hb rfl (bits_dev _ ‹_›)
    split
    · rename_i h1
      refine fine_itf hb rfl fun hi h0 => ⟨p, rfl, r.bm, r.value, r.length, ?_, h1, rfl⟩
      rw [← hi, ← h0]; exact hp
    split
    · exact fine_ep hb rfl (bits_ep _ ‹_›)
    · exact fine_error hb
  | taken =>
    simp only [step]
    split
    · exact fine_in h
    · exact fine_ok h
  | out d => exact fine_out h
  | epIn n =>
    simp only [step]
    split
    · split
      · exact fine_ok ⟨h.len, h.size, h.tx, h.rx⟩
      · exact fine_ok h
    · exact fine_ok h
  | epOut n =>
    simp only [step]
    split
    · split
      · exact fine_ok ⟨h.len, h.size, h.tx, h.rx⟩
      · exact fine_ok h
    · exact fine_ok h
  | reset => exact fine_ok ⟨h.len, h.size, h.tx, fun o n e => nomatch e⟩
  | suspend => exact fine_ok ⟨h.len, h.size, h.tx, h.rx⟩
  | resume => exact fine_ok ⟨h.len, h.size, h.tx, h.rx⟩
  | disconnect => exact fine_ok ⟨h.len, h.size, h.tx, h.rx⟩
  | write off d =>
    have hd : off + d.length ≤ s.buf.length := by rw [h.len]; exact hv
    simp only [step, wrRange_ok hd, ok_bind, pure_eq_ok]
    refine fine_ok ⟨?_, h.size, h.tx, h.rx⟩
    simp only [List.length_append, List.length_take, List.length_drop]
    have := h.len
    omega
  | acquire o =>
    refine fine_ok ⟨h.len, h.size, h.tx, fun off n e => ?_⟩
    obtain ⟨g1, g2, g3, g4, g5, g6⟩ := h.rx off n e
    refine ⟨g1, g2, g3, g4, ?_, g6⟩
    show Apdu.acquireCas s.owner o = WebUsb.ownerWeb
    rw [g5]; rfl
  | release o =>
    refine fine_ok ⟨h.len, h.size, h.tx, fun off n e => ?_⟩
    obtain ⟨g1, g2, g3, g4, g5, g6⟩ := h.rx off n e
    refine ⟨g1, g2, g3, g4, ?_, g6⟩
    show Apdu.releaseCas s.owner o = WebUsb.ownerWeb
    rw [g5, Apdu.releaseCas, Apdu.cas, if_neg]
    intro e
    exact hv e.symm
  | webDone r =>
    simp only [step]
    split
    · rename_i hp
      have hd : 0 + r.length ≤ s.buf.length := by rw [h.len, Nat.zero_add]; exact hv
      simp only [wrRange_ok hd, ok_bind, pure_eq_ok]
      refine fine_ok ⟨?_, hv, h.tx, fun off n e => ?_⟩
      · simp only [List.length_append, List.length_take, List.length_drop]
        have := h.len
        omega
      · have g := (h.rx off n e).2.2.2.1
        rw [hp] at g; cases g
    · exact fine_ok h
  | webTimeout tick =>
    simp only [step]
    split
    · rename_i hp
      refine fine_ok ⟨h.len, h.size, h.tx, fun off n e => ?_⟩
      have g := (h.rx off n e).2.2.2.1
      rw [hp.2] at g; cases g
    · exact fine_ok h

theorem latest_cons (p : Option Bytes) (op : Op) (h : List Op) : latest p (op :: h) = latest (latest p [op]) h := by cases op <;> rfl

theorem fine_run {c : Cfg} {h : List Op} {last : Option Bytes} {s : St} (hi : Inv c last s) (hv : ∀ op ∈ h, Possible op) :
    Fine c (latest last h) (run c s h) := by
  induction h generalizing s last with
  | nil => exact fine_ok hi
  | cons op h ih =>
    obtain ⟨t, e, ht⟩ := fine_step hi (hv op (.head _))
    rw [latest_cons, run, e, ok_bind]
    exact ih ht fun o ho => hv o (.tail _ ho)

theorem inv_init (c : Cfg) : Inv c none St.init :=
  ⟨List.length_replicate, Nat.zero_le _, (fun e => nomatch e), fun o n e => nomatch e⟩

/-- **C84, first part.** Whatever the host sends, and whatever else happens, the control endpoint never reads or writes outside of the
object a pointer points to. -/
theorem C84_memory_safe (c : Cfg) (h : List Op) (hv : ∀ op ∈ h, Possible op) : ∃ s, run c St.init h = .ok s := by
  obtain ⟨s, e, _⟩ := fine_run (inv_init c) hv
  exact ⟨s, e⟩

/-- **C84, second part.** A data packet of the host changes the shared buffer only if the latest SETUP packet announced a WebUSB command and the buffer
is the WebUSB interface's, and then only within the announced size, which leaves room for a status word. -/
theorem C84_out_region (c : Cfg) (h : List Op) (hv : ∀ op ∈ h, Possible op) (s t : St) (d : Bytes) (hs : run c St.init h = .ok s)
    (ht : step c s (.out d) = .ok t) (hne : t.buf ≠ s.buf) :
    ∃ bm v l, latest none h = some (packet bm 0 v (wideByte c.ifWeb) l) ∧ bm &&& 0x1F = 1 ∧ l.toNat ≤ 1340 ∧ s.owner = WebUsb.ownerWeb ∧
      t.buf.length = 1342 ∧ t.buf.drop l.toNat = s.buf.drop l.toNat := by
  obtain ⟨s', e, hi⟩ := fine_run (inv_init c) hv
  rw [hs] at e; cases e
  simp only [step, dataOutStage] at ht
  cases hx : s.rx with
  | none => rw [hx] at ht; cases ht; exact absurd rfl hne
  | some q =>
    obtain ⟨p, n⟩ := q
    have st (k : St) : ∀ t, ctlSendStatus c k = .ok t → t.buf = k.buf := by
      intro t e
      have e' (t : St) : rdSrc t (.const []) 0 (min 0 c.mps) = .ok [] := by simp [rdSrc, rdRange]
      simp only [ctlSendStatus, transmit, e', ok_bind, pure_eq_ok] at e
      cases e; rfl
    cases p with
    | none =>
      exfalso; apply hne
      simp only [hx, ok_bind, pure_eq_ok] at ht
      split at ht
      · cases ht; rfl
      split at ht
      · cases ht; rfl
      · rw [st _ _ ht]
        split <;> rfl
    | some off =>
      obtain ⟨g1, g2, g3, g4, g5, p, hp, bm, v, l, rfl, hb, hl⟩ := hi.rx off n hx
      refine ⟨bm, v, l, hp, hb, by omega, g5, ?_⟩
      have hd : (d.take (min n c.mps)).length ≤ n := by rw [List.length_take]; omega
      have hw : off + (d.take (min n c.mps)).length ≤ s.buf.length := by rw [hi.len]; omega
      simp only [hx, wrRange_ok hw, ok_bind, pure_eq_ok] at ht
      have key : t.buf = s.buf.take off ++ d.take (min n c.mps) ++ s.buf.drop (off + (d.take (min n c.mps)).length) := by
        split at ht
        · cases ht; rfl
        split at ht
        · cases ht; rfl
        · rw [st _ _ ht]
          split <;> rfl
      rw [key]
      have hlen := hi.len
      generalize d.take (min n c.mps) = x at *
      constructor
      · simp only [List.length_append, List.length_take, List.length_drop]; omega
      · have h1 : (s.buf.take off ++ x).length = off + x.length := by simp only [List.length_append, List.length_take]; omega
        rw [List.drop_append, List.drop_eq_nil_of_le (by omega), List.nil_append, h1, List.drop_drop]
        congr 1
        omega

end Verif.Usb
