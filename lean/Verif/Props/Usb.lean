import Verif.Lemmas.UsbXfer
/-
C80: a host that reads data over the control endpoint gets exactly the data, in the right packets.
C81: requests for descriptors give the descriptors and nothing else.
C82: the configuration descriptor is well-formed.
-/
namespace Verif.Usb
open Verif.Spec.Usb

/-! ### C82 -/

theorem functions_length (c : Cfg) : (functions c).flatten.length = if c.ifKbd ≠ 0xFF then 150 else 118 := by
  by_cases hk : c.ifKbd = 0xFF <;> simp [functions, function, interface, endpoint, hid, smartCard, hk]

theorem configuration_length (c : Cfg) : (configuration c).length = if c.ifKbd ≠ 0xFF then 159 else 127 := by
  have := functions_length c
  simp only [configuration, List.length_append, this]
  split <;> rfl

theorem configuration_total (c : Cfg) :
    ((configuration c).getD 2 0).toNat + 256 * ((configuration c).getD 3 0).toNat = (configuration c).length := by
  have := functions_length c
  rw [configuration_length]
  show (UInt8.ofNat ((9 + (functions c).flatten.length) % 256)).toNat + 256 * (UInt8.ofNat ((9 + (functions c).flatten.length) / 256)).toNat = _
  rw [this]
  split <;> rfl

set_option maxRecDepth 20000 in
/-- What the device composes as its configuration descriptor is, whatever its tables contain, a sequence of descriptors
that starts with the configuration, gives its own length, has as many interfaces as it says, with their numbers, and the endpoints of
the tables; every interface is followed by as many endpoints as it says. -/
theorem C82_configuration_descriptor (c : Cfg) :
    ∃ d ds, configDesc c = .ok d ∧ split d.length d = some ds ∧
      ds.head? = some (d.take 9) ∧ d.take 2 = [9, 2] ∧
      (d.getD 2 0).toNat + 256 * (d.getD 3 0).toNat = d.length ∧
      ds.tail.all (typeOf · ≠ 2) = true ∧ counted ds = true ∧
      (d.getD 4 0).toNat = ds.countP (typeOf · = 4) ∧
      (ds.filter (typeOf · = 4)).map (·.getD 2 0) = [c.ifCtap, c.ifWeb, c.ifCcid] ++ (if c.ifKbd ≠ 0xFF then [c.ifKbd] else []) ∧
      (ds.filter (typeOf · = 5)).map (fun e => (e.getD 2 0, e.getD 4 0)) =
        [(0x80 ||| c.epCtap, c.szCtap), (c.epCtap, c.szCtap), (0x80 ||| c.epCcid, c.szCcid), (c.epCcid, c.szCcid)] ++
        (if c.ifKbd ≠ 0xFF then [(0x80 ||| c.epKbd, c.szKbd), (c.epKbd, c.szKbd)] else []) := by
  refine ⟨configuration c, ?_⟩
  rw [configDesc_eq]
  have ht := configuration_total c
  revert ht
  by_cases hk : c.ifKbd = 0xFF
  · simp only [configuration, functions, hk, ne_eq, not_true_eq_false, if_false]
    intro ht
    exact ⟨_, trivial, rfl, rfl, rfl, ht, rfl, rfl, rfl, rfl, rfl⟩
  · simp only [configuration, functions, hk, ne_eq, not_false_eq_true, if_true]
    intro ht
    exact ⟨_, trivial, rfl, rfl, rfl, ht, rfl, rfl, rfl, rfl, rfl⟩

/-! ### C80, C81 -/

theorem word_packet (v : UInt16) : (lo v).toUInt16 + (hi v).toUInt16 <<< 8 = v := by
  apply UInt16.toNat_inj.mp
  simp [lo, hi, Nat.shiftRight_eq_div_pow, Nat.shiftLeft_eq]
  have := v.toNat_lt
  omega

theorem parse_packet (bm br : Byte) (v i l : UInt16) : parse (packet bm br v i l) = .ok ⟨bm, br, v, i, l⟩ := by
  show (.ok (⟨bm, br, (lo v).toUInt16 + (hi v).toUInt16 <<< 8, (lo i).toUInt16 + (hi i).toUInt16 <<< 8, (lo l).toUInt16 + (hi l).toUInt16 <<< 8⟩ : Req) : C Req) = _
  rw [word_packet, word_packet, word_packet]

/-- The state after `USBD_LL_SetupStage` has noted the request. -/
def began (s : St) (l : UInt16) : St := { s with pend := false, rx := none, e0 := .setup, dataLen := l.toNat }

/-- A transfer of `d`, of which the host asked for `l` bytes, has begun. -/
def Begun (c : Cfg) (s t : St) (d : Bytes) (l : UInt16) : Prop :=
  d.take l.toNat ≠ [] ∧ Side t ∧ sent t.log = sent s.log ++ (packets c.mps (d.take l.toNat) l.toNat).take 1 ∧
    Xfer c t (d.take l.toNat).length (packets c.mps (d.take l.toNat) l.toNat).tail

theorem begin_send {c : Cfg} {s t : St} {p : Src} {d : Bytes} {l : UInt16} (hmps : 0 < c.mps) (hl : l ≠ 0) (h0 : d ≠ [])
    (hr : Reads t p d) (hb : t.buf.length = 1342) (hrx : t.rx = none) (hd : t.dataLen = l.toNat) (hlog : t.log = s.log) :
    ∃ u, ctlSendData c t p (min d.length l.toNat) = .ok u ∧ Begun c s u d l := by
  have hl' : 0 < l.toNat := Nat.pos_of_ne_zero fun h => hl (UInt16.toNat_inj.mp h)
  have hlen : 0 < d.length := List.length_pos_iff.mpr h0
  have h0' : d.take l.toNat ≠ [] := by
    intro h
    have := congrArg List.length h
    rw [List.length_take, List.length_nil] at this; omega
  have hr' : Reads t p (d.take l.toNat) := by
    cases p <;> exact (List.take_prefix _ _).trans hr
  obtain ⟨u, e, hs, hlg, hx, _⟩ := xfer_start (c := c) hmps h0' ⟨hb, by simp [hrx]⟩ hr'
  refine ⟨u, ?_, h0', hs, ?_, ?_⟩
  · rw [← e, List.length_take, Nat.min_comm]
  · rw [hlg, hd, hlog]
  · rw [← hd]; rw [hd] at hx ⊢; exact hx

theorem compose_ok {s : St} {d : Bytes} (hb : s.buf.length = 1342) (hd : d.length ≤ 1342) :
    compose s d = .ok { s with buf := d ++ s.buf.drop d.length } := by
  simp [compose, wrRange, hb, hd]

theorem compose_len {s : St} {d : Bytes} (hb : s.buf.length = 1342) (hd : d.length ≤ 1342) : (d ++ s.buf.drop d.length).length = 1342 := by
  simp [hb]; omega

theorem sendDesc_begin {c : Cfg} {s t : St} {p : Src} {d : Bytes} {r : Req} (hmps : 0 < c.mps) (hl : r.length ≠ 0) (h0 : d ≠ [])
    (hr : Reads t p d) (hb : t.buf.length = 1342) (hrx : t.rx = none) (hd : t.dataLen = r.length.toNat) (hlog : t.log = s.log) :
    ∃ u, sendDesc c t p d.length r = .ok u ∧ Begun c s u d r.length := by
  rw [sendDesc, if_pos ⟨fun h => h0 (List.length_eq_zero_iff.mp h), hl⟩]
  exact begin_send hmps hl h0 hr hb hrx hd hlog

theorem string_eq (x : String) : stringDesc x.toList = Spec.Usb.string x := by
  simp only [stringDesc, Spec.Usb.string, wide, List.flatMap, String.length, Nat.mul_comm, Nat.add_comm]

theorem wide_length (x : List Char) : (wide x).length = 2 * x.length := by
  induction x with
  | nil => rfl
  | cons a x ih => simp [wide] at ih ⊢; omega

theorem stringDesc_length (x : List Char) : (stringDesc x).length = x.length * 2 + 2 := by
  simp [stringDesc, wide_length]; omega

theorem digit_eq (n : Nat) (h : n < 16) :
    UInt8.ofNat (if n < 10 then Char.ofNat (48 + n) else Char.ofNat (55 + n)).toNat = UInt8.ofNat (if n < 10 then 0x30 + n else 0x41 + (n - 10)) := by
  revert n; decide

theorem serial_eq (c : Cfg) : stringDesc (serialStr c) = serial c := by
  have h1 (b : Byte) : b.toNat / 16 < 16 := by have := b.toNat_lt; omega
  have h2 (b : Byte) : b.toNat % 16 < 16 := Nat.mod_lt _ (by decide)
  simp only [stringDesc, serialStr, hexByte, wide, serial, List.flatMap, List.map, List.flatten, List.cons_append, List.nil_append, digit_eq _ (h1 _), digit_eq _ (h2 _)]
  rfl

/-- A string descriptor is sent. -/
theorem string_begin {c : Cfg} {s : St} {x : List Char} {d : Bytes} {r : Req} (hmps : 0 < c.mps) (hl : r.length ≠ 0)
    (hb : s.buf.length = 1342) (hx : x.length * 2 + 2 ≤ 1342) (hd : stringDesc x = d) :
    ∃ u, (compose (began s r.length) (stringDesc x) >>= fun t => sendDesc c t .shared (x.length * 2 + 2) r) = .ok u ∧ Begun c s u d r.length := by
  have hlen : (stringDesc x).length ≤ 1342 := by rw [stringDesc_length]; exact hx
  rw [compose_ok (s := began s r.length) hb hlen, ok_bind, ← hd, ← stringDesc_length]
  exact sendDesc_begin hmps hl (by simp [stringDesc]) (List.prefix_append _ _) (compose_len hb hlen) rfl rfl rfl

theorem descriptor_begin {c : Cfg} {s : St} {d : Bytes} {r : Req} (hmps : 0 < c.mps) (hl : r.length ≠ 0)
    (hb : s.buf.length = 1342) (h : Spec.Usb.descriptor c (hi r.value) (lo r.value) = some d) (hk : hi r.value = 2 → c.ifKbd ≠ 0xFF) :
    ∃ u, getDescriptor c (began s r.length) r = .ok u ∧ Begun c s u d r.length := by
  simp only [Spec.Usb.descriptor] at h
  simp only [getDescriptor, Usb.descriptor]
  by_cases t1 : hi r.value = 1
  · rw [if_pos t1] at h
    cases h
    simp only [t1, show ¬ ((1 : Byte) = 0x0F) from by decide, if_false, if_true, pure_eq_ok, ok_bind]
    exact sendDesc_begin hmps hl (by simp [deviceDesc]) (List.prefix_refl _) hb rfl rfl rfl
  rw [if_neg t1] at h
  by_cases t2 : hi r.value = 2
  · rw [if_pos t2] at h
    cases h
    have hlen : (configuration c).length = 159 := by rw [configuration_length, if_pos (hk t2)]
    simp only [t2, show ¬ ((2 : Byte) = 0x0F) from by decide, show ¬ ((2 : Byte) = 1) from by decide, if_false, if_true, configDesc_eq, ok_bind]
    rw [compose_ok (s := began s r.length) (d := configuration c) hb (by omega)]
    simp only [ok_bind, pure_eq_ok]
    rw [show configLen = (configuration c).length from hlen.symm ▸ rfl]
    refine sendDesc_begin hmps hl ?_ (List.prefix_append _ _) (compose_len hb (by omega)) rfl rfl rfl
    intro h0; rw [h0] at hlen; simp at hlen
  rw [if_neg t2] at h
  by_cases t3 : hi r.value = 0x0F
  · rw [if_pos t3] at h
    cases h
    simp only [t3, if_true]
    rw [compose_ok (s := began s r.length) (d := bosDesc c) hb (by simp [bosDesc])]
    simp only [ok_bind, pure_eq_ok]
    exact sendDesc_begin hmps hl (by simp [bosDesc]) (List.prefix_append _ _) (compose_len hb (by simp [bosDesc])) rfl rfl rfl
  rw [if_neg t3] at h
  simp only [t1, t2, t3, if_false]
  by_cases t4 : ¬ hi r.value = 3
  · rw [if_neg t4] at h; cases h
  have t4 := Decidable.not_not.mp t4
  rw [if_pos t4] at h
  simp only [t4, if_true]
  by_cases i0 : lo r.value = 0
  · rw [if_pos i0] at h
    cases h
    simp only [i0, if_true, pure_eq_ok, ok_bind]
    exact sendDesc_begin hmps hl (by simp [langDesc]) (List.prefix_refl _) hb rfl rfl rfl
  rw [if_neg i0] at h
  simp only [i0, if_false]
  have str (x : List Char) (hx : x.length * 2 + 2 ≤ 1342) (hd : stringDesc x = d) :
      ∃ u, ((do
        let s ← compose (began s r.length) (stringDesc x)
        pure (some (s, Src.shared, x.length * 2 + 2)) : C _) >>= fun o => match o with
          | none => (pure (ctlError (began s r.length)) : C St)
          | some (s, p, len) => sendDesc c s p len r) = .ok u ∧ Begun c s u d r.length := by
    obtain ⟨u, e, hu⟩ := string_begin (c := c) hmps hl hb hx hd
    refine ⟨u, ?_, hu⟩
    rw [← e]
    rw [compose_ok (s := began s r.length) (d := stringDesc x) hb (by rw [stringDesc_length]; exact hx)]
    rfl
  by_cases i1 : lo r.value = 1
  · rw [if_pos i1] at h
    cases h
    simp only [i1, if_true]
    exact str _ (by decide) (string_eq _)
  rw [if_neg i1] at h
  simp only [i1, if_false]
  by_cases i2 : lo r.value = 2
  · rw [if_pos i2] at h
    cases h
    simp only [i2, if_true]
    exact str _ (by decide) (string_eq _)
  rw [if_neg i2] at h
  simp only [i2, if_false]
  by_cases i3 : lo r.value = 3
  · rw [if_pos i3] at h
    cases h
    simp only [i3, if_true]
    exact str _ (by simp [serialStr, hexByte]) (serial_eq c)
  rw [if_neg i3] at h
  simp only [i3, if_false, userStr]
  by_cases i4 : lo r.value = 0x10
  · rw [if_pos i4] at h
    cases h
    simp only [i4, if_true]
    exact str _ (by decide) (string_eq _)
  rw [if_neg i4] at h
  simp only [i4, if_false]
  by_cases i5 : lo r.value = 0x11
  · rw [if_pos i5] at h
    cases h
    simp only [i5, if_true]
    exact str _ (by decide) (string_eq _)
  rw [if_neg i5] at h
  simp only [i5, if_false]
  by_cases i6 : lo r.value = 0x12
  · rw [if_pos i6] at h
    cases h
    simp only [i6, if_true]
    exact str _ (by decide) (string_eq _)
  rw [if_neg i6] at h
  simp only [i6, if_false]
  by_cases i7 : lo r.value = 0x13
  · rw [if_pos i7] at h
    cases h
    simp only [i7, if_true]
    exact str _ (by decide) (string_eq _)
  rw [if_neg i7] at h
  cases h

theorem lo_wide (b : Byte) : lo (wideByte b) = b := by revert b; decide +kernel

theorem wide_inj {a b : Byte} (h : wideByte a = wideByte b) : a = b := by rw [← lo_wide a, h, lo_wide]

theorem wide_lt {b : Byte} (h : b < 4) : (lo (wideByte b)).toNat < 4 := by rw [lo_wide]; exact h

/-- The interface the request is for. -/
theorem itf_setup {c : Cfg} {s : St} {r : Req} {tick : Nat} {i : Byte} (hd : s.dev = .configured) (hl : r.length ≠ 0) (hi : r.index = wideByte i)
    (h4 : i < 4) : stdItfReq c s r tick = (classSetup c s r tick >>= fun t => .ok t) := by
  rw [stdItfReq, if_pos hd, hi, if_pos (wide_lt h4)]
  simp only [if_neg hl, pure_eq_ok]

theorem bind_ok' {α : Type} (x : C α) : (x >>= fun t => .ok t) = x := by cases x <;> rfl

theorem stage_dev {c : Cfg} {s : St} {bm br : Byte} {v i l : UInt16} {tick : Nat} (h1 : bm ≠ 0xC0) (h2 : bm &&& 0x1F = 0) :
    setupStage c s ⟨bm, br, v, i, l⟩ tick = stdDevReq c (began s l) ⟨bm, br, v, i, l⟩ tick := by
  simp only [setupStage, if_neg h1, if_pos h2]; rfl

theorem stage_itf {c : Cfg} {s : St} {bm br : Byte} {v i l : UInt16} {tick : Nat} (h1 : bm ≠ 0xC0) (h2 : bm &&& 0x1F = 1) :
    setupStage c s ⟨bm, br, v, i, l⟩ tick = stdItfReq c (began s l) ⟨bm, br, v, i, l⟩ tick := by
  simp only [setupStage, if_neg h1, h2]; rfl

theorem stage_ep {c : Cfg} {s : St} {bm br : Byte} {v i l : UInt16} {tick : Nat} (h1 : bm ≠ 0xC0) (h2 : bm &&& 0x1F = 2) :
    setupStage c s ⟨bm, br, v, i, l⟩ tick = stdEpReq c (began s l) ⟨bm, br, v, i, l⟩ tick := by
  simp only [setupStage, if_neg h1, h2]; rfl

/-- The recipient of a request to an interface is not an endpoint. -/
theorem classSetup_ctap {c : Cfg} {s : St} {bm br : Byte} {v l : UInt16} {tick : Nat} (hr : bm &&& 3 = 1) :
    classSetup c s ⟨bm, br, v, wideByte c.ifCtap, l⟩ tick =
      hidSetup c s ⟨bm, br, v, wideByte c.ifCtap, l⟩ ctapReport ctapHidDesc (fun s v => { s with idleCtap := v }) := by
  simp only [classSetup, hr, true_and, true_or, if_true]

theorem classSetup_kbd {c : Cfg} {s : St} {bm br : Byte} {v l : UInt16} {tick : Nat} (hr : bm &&& 3 = 1) (hn : c.ifCtap ≠ c.ifKbd) :
    classSetup c s ⟨bm, br, v, wideByte c.ifKbd, l⟩ tick =
      hidSetup c s ⟨bm, br, v, wideByte c.ifKbd, l⟩ kbdReport kbdHidDesc (fun s v => { s with idleKbd := v }) := by
  have : ¬ wideByte c.ifKbd = wideByte c.ifCtap := fun h => hn (wide_inj h).symm
  simp only [classSetup, hr, this, true_and, true_or, if_true, show ¬ ((1 : Byte) = 2) from by decide, false_and, or_self, if_false]

theorem classSetup_web {c : Cfg} {s : St} {bm br : Byte} {v l : UInt16} {tick : Nat} (hr : bm &&& 3 = 1) (h1 : c.ifCtap ≠ c.ifWeb)
    (h2 : c.ifWeb ≠ c.ifKbd) :
    classSetup c s ⟨bm, br, v, wideByte c.ifWeb, l⟩ tick = webSetup c s ⟨bm, br, v, wideByte c.ifWeb, l⟩ tick := by
  have e1 : ¬ wideByte c.ifWeb = wideByte c.ifCtap := fun h => h1 (wide_inj h).symm
  have e2 : ¬ wideByte c.ifWeb = wideByte c.ifKbd := fun h => h2 (wide_inj h)
  simp only [classSetup, hr, e1, e2, true_and, if_true, show ¬ ((1 : Byte) = 2) from by decide, false_and, or_self, if_false]

theorem hid_report {c : Cfg} {s : St} {i l : UInt16} {a b : Bytes} {f : St → Nat → St} :
    hidSetup c s ⟨0x81, 6, 0x2200, i, l⟩ a b f = ctlSendData c s (.const a) (min a.length l.toNat) := by
  simp only [hidSetup]
  rw [if_neg (by decide), if_pos (by decide)]
  rw [if_pos trivial, if_pos (by decide)]

theorem hid_desc {c : Cfg} {s : St} {i l : UInt16} {a b : Bytes} {f : St → Nat → St} :
    hidSetup c s ⟨0x81, 6, 0x2100, i, l⟩ a b f = ctlSendData c s (.const b) (min b.length l.toNat) := by
  simp only [hidSetup]
  rw [if_neg (by decide), if_pos (by decide)]
  rw [if_pos trivial, if_neg (by decide), if_pos (by decide)]

theorem stage_vendor {c : Cfg} {s : St} {r : Req} {tick : Nat} (h1 : r.bm = 0xC0) :
    setupStage c s r tick = vendorReq c (began s r.length) r := by
  rw [setupStage, if_pos h1]; rfl

theorem has_begin {c : Cfg} {s : St} {bm br : Byte} {v i l : UInt16} {d : Bytes} {tick : Nat} (hmps : 0 < c.mps) (ht : Tables c)
    (hb : s.buf.length = 1342) (hl : l ≠ 0) (h : Has c s bm br v i d)
    (hk : br = 6 → hi v = 2 → c.ifKbd ≠ 0xFF) (hs : br = 0 → 2 ≤ l.toNat) (hc : bm = 0x80 → br = 8 → l = 1) :
    ∃ u, step c s (.setup (packet bm br v i l) tick) = .ok u ∧ Begun c s u d l := by
  have hl' : 0 < l.toNat := Nat.pos_of_ne_zero fun h => hl (UInt16.toNat_inj.mp h)
  simp only [step, parse_packet, ok_bind]
  show ∃ u, setupStage c s ⟨bm, br, v, i, l⟩ tick = .ok u ∧ _
  cases h with
  | descriptor h =>
    rw [stage_dev (by decide) (by decide)]
    exact descriptor_begin (r := ⟨0x80, 6, v, i, l⟩) hmps hl hb h (hk rfl)
  | configuration h =>
    have hl1 := hc rfl rfl
    subst hl1
    obtain ⟨u, e, hu⟩ := begin_send (c := c) (s := s) (t := began s 1) (p := .const [UInt8.ofNat s.config]) (d := [UInt8.ofNat s.config]) hmps hl
      (by simp) (List.prefix_refl _) hb rfl rfl rfl
    refine ⟨u, ?_, hu⟩
    rw [← e]
    rw [stage_dev (by decide) (by decide)]
    show getConfig c (began s 1) ⟨0x80, 8, 0, 0, 1⟩ = _
    simp only [getConfig]
    rw [if_neg (by decide), show (began s 1).dev = .configured from h]
    rfl
  | unconfigured h =>
    have hl1 := hc rfl rfl
    subst hl1
    obtain ⟨u, e, hu⟩ := begin_send (c := c) (s := s) (t := began s 1) (p := .const [0]) (d := [0]) hmps hl
      (by simp) (List.prefix_refl _) hb rfl rfl rfl
    refine ⟨u, ?_, hu⟩
    rw [← e]
    rw [stage_dev (by decide) (by decide)]
    show getConfig c (began s 1) ⟨0x80, 8, 0, 0, 1⟩ = _
    simp only [getConfig]
    rw [if_neg (by decide), show (began s 1).dev = .addressed from h]
    rfl
  | status h =>
    have h2 := hs rfl
    obtain ⟨u, e, hu⟩ := begin_send (c := c) (s := s) (t := began s l) (p := .const [if s.wakeup then 2 else 0, 0]) (d := [if s.wakeup then 2 else 0, 0]) hmps hl
      (by simp) (List.prefix_refl _) hb rfl rfl rfl
    rw [Nat.min_eq_left (by exact h2)] at e
    refine ⟨u, ?_, hu⟩
    rw [← e]
    rw [stage_dev (by decide) (by decide)]
    show getStatus c (began s l) = _
    simp only [getStatus]
    rcases h with h | h <;> rw [show (began s l).dev = _ from h] <;> rfl
  | endpoint h he =>
    have h2 := hs rfl
    obtain ⟨u, e, hu⟩ := begin_send (c := c) (s := s) (t := began s l) (p := .const [if lo i ∈ s.halted then 1 else 0, 0]) (d := [if lo i ∈ s.halted then 1 else 0, 0]) hmps hl
      (by simp) (List.prefix_refl _) hb rfl rfl rfl
    rw [Nat.min_eq_left (by exact h2)] at e
    refine ⟨u, ?_, hu⟩
    rw [← e]
    rw [stage_ep (by decide) (by decide)]
    simp only [stdEpReq]
    rw [if_neg (by have : (lo i &&& 0x7F).toNat < 4 := he; omega), if_neg (by decide), if_neg (by decide), if_neg (by decide), if_pos trivial,
      show (began s l).dev = .configured from h]
    rfl
  | url =>
    rw [stage_vendor rfl]
    exact sendDesc_begin (c := c) (t := began s l) (p := .const urlDesc) (d := urlDesc) (r := ⟨0xC0, 1, 1, 2, l⟩) hmps hl (by simp [urlDesc]) (List.prefix_refl _) hb rfl rfl rfl
  | msos =>
    rw [stage_vendor rfl]
    simp only [vendorReq]
    rw [if_neg (by decide), if_pos trivial, if_pos trivial]
    exact sendDesc_begin (c := c) (t := began s l) (p := .const msosDesc) (d := msosDesc) (r := ⟨0xC0, 2, v, 7, l⟩) hmps hl (by simp [msosDesc]) (List.prefix_refl _) hb rfl rfl rfl
  | ctapReport h =>
    obtain ⟨u, e, hu⟩ := begin_send (c := c) (s := s) (t := began s l) (p := .const ctapReport) (d := ctapReport) (l := l) hmps hl
      (by simp [ctapReport]) (List.prefix_refl _) hb rfl rfl rfl
    refine ⟨u, ?_, hu⟩
    rw [← e]
    rw [stage_itf (by decide) (by decide)]
    rw [itf_setup (by exact h) hl rfl ht.ctap, bind_ok', classSetup_ctap (by decide), hid_report]
  | ctapHid h =>
    obtain ⟨u, e, hu⟩ := begin_send (c := c) (s := s) (t := began s l) (p := .const ctapHidDesc) (d := ctapHidDesc) (l := l) hmps hl
      (by simp [ctapHidDesc]) (List.prefix_refl _) hb rfl rfl rfl
    refine ⟨u, ?_, hu⟩
    rw [← e]
    rw [stage_itf (by decide) (by decide)]
    rw [itf_setup (by exact h) hl rfl ht.ctap, bind_ok', classSetup_ctap (by decide), hid_desc]
  | kbdReport h hk' =>
    obtain ⟨u, e, hu⟩ := begin_send (c := c) (s := s) (t := began s l) (p := .const kbdReport) (d := kbdReport) (l := l) hmps hl
      (by simp [kbdReport]) (List.prefix_refl _) hb rfl rfl rfl
    refine ⟨u, ?_, hu⟩
    rw [← e]
    rw [stage_itf (by decide) (by decide)]
    rw [itf_setup (by exact h) hl rfl (ht.kbd.resolve_right hk'), bind_ok', classSetup_kbd (by decide) ht.ctapKbd, hid_report]
  | kbdHid h hk' =>
    obtain ⟨u, e, hu⟩ := begin_send (c := c) (s := s) (t := began s l) (p := .const kbdHidDesc) (d := kbdHidDesc) (l := l) hmps hl
      (by simp [kbdHidDesc]) (List.prefix_refl _) hb rfl rfl rfl
    refine ⟨u, ?_, hu⟩
    rw [← e]
    rw [stage_itf (by decide) (by decide)]
    rw [itf_setup (by exact h) hl rfl (ht.kbd.resolve_right hk'), bind_ok', classSetup_kbd (by decide) ht.ctapKbd, hid_desc]
  | webStatus h =>
    obtain ⟨u, e, hu⟩ := begin_send (c := c) (s := s) (t := { began s l with keep := tick }) (p := .const [wsByte s.web]) (d := [wsByte s.web]) (l := l) hmps hl
      (by simp) (List.prefix_refl _) hb rfl rfl rfl
    rw [Nat.min_eq_left (by exact hl')] at e
    refine ⟨u, ?_, hu⟩
    rw [← e]
    rw [stage_itf (by decide) (by decide)]
    rw [itf_setup (by exact h) hl rfl ht.web, bind_ok', classSetup_web (by decide) ht.ctapWeb ht.webKbd]
    rfl
  | webResponse h hw h0 h1 =>
    obtain ⟨u, e, hu⟩ := begin_send (c := c) (s := s) (t := { began s l with keep := tick }) (p := .shared) (d := s.buf.take s.webSize) (l := l) hmps hl
      (by intro h; have := congrArg List.length h; rw [List.length_take, List.length_nil, hb] at this; omega) (List.take_prefix _ _) hb rfl rfl rfl
    rw [List.length_take, hb, Nat.min_eq_left h1] at e
    refine ⟨{ u with web := .sent }, ?_, hu.1, ⟨hu.2.1.len, hu.2.1.rx⟩, hu.2.2.1, hu.2.2.2.congr rfl rfl rfl rfl rfl rfl rfl rfl⟩
    rw [stage_itf (by decide) (by decide)]
    rw [itf_setup (by exact h) hl rfl ht.web, bind_ok', classSetup_web (by decide) ht.ctapWeb ht.webKbd]
    simp only [webSetup]
    rw [if_neg (by decide), if_pos trivial, if_pos (show ({ began s l with keep := tick } : St).web = .sending from hw)]
    exact (congrArg (fun x : C St => x >>= fun t => pure { t with web := .sent }) e)

/-- A host that asks for data gets, packet by packet as it takes them and whatever else happens in the meantime, exactly the first
`wLength` bytes of it, in full packets with a shorter or empty one at the end where the end would not be clear otherwise. Nothing
more is sent, and the device then waits for the status stage.
Not covered: the configuration descriptor of a device without a keyboard (`C81_refuted`) and status requests for fewer than two
bytes (`C80_refuted`). A GET_CONFIGURATION request has `wLength = 1`. -/
theorem C80_transfer_partial {c : Cfg} {s : St} {bm br : Byte} {v i l : UInt16} {d : Bytes} {tick : Nat} {h : List Op}
    (hmps : 0 < c.mps) (ht : Tables c) (hb : s.buf.length = 1342) (hl : l ≠ 0) (hd : Has c s bm br v i d)
    (hk : br = 6 → hi v = 2 → c.ifKbd ≠ 0xFF) (hs : br = 0 → 2 ≤ l.toNat) (hc : bm = 0x80 → br = 8 → l = 1)
    (hh : ∀ op ∈ h, Calm (d.take l.toNat).length op) :
    ∃ s', run c s (.setup (packet bm br v i l) tick :: h) = .ok s' ∧
      sent s'.log = sent s.log ++ (packets c.mps (d.take l.toNat) l.toNat).take (1 + taken h) ∧
      ((packets c.mps (d.take l.toNat) l.toNat).length ≤ taken h → s'.e0 = .statusOut ∧ s'.pend = false) := by
  obtain ⟨u, e, hne, hs', hlog, hx⟩ := has_begin (tick := tick) hmps ht hb hl hd hk hs hc
  obtain ⟨w, e', hlog', hdone⟩ := run_xfer hmps h hs' hx hh
  refine ⟨w, by simp only [run, e, ok_bind, e'], ?_, ?_⟩
  · rw [hlog', hlog, List.append_assoc]
    congr 1
    cases packets c.mps (d.take l.toNat) l.toNat with
    | nil => simp
    | cons a x => simp [Nat.add_comm 1]
  · intro hle
    apply hdone
    have : packets c.mps (d.take l.toNat) l.toNat ≠ [] := by
      have h0 : d.take l.toNat ≠ [] := hne
      rw [packets, chunks_cons hmps h0]
      exact List.cons_ne_nil _ _
    rw [List.length_tail]
    have := List.length_pos_iff.mpr this
    omega

/-- The control endpoint has nothing to send and expects no data. -/
structure Still (s : St) : Prop where
  len : s.buf.length = 1342
  pend : s.pend = false
  rx : s.rx = none

theorem run_still {c : Cfg} {m : Nat} (h : List Op) : ∀ {s : St}, Still s → (∀ op ∈ h, Calm m op) →
    ∃ s', run c s h = .ok s' ∧ sent s'.log = sent s.log := by
  induction h with
  | nil => intro s _ _; exact ⟨s, rfl, rfl⟩
  | cons op h ih =>
    intro s hs hc
    have key : ∃ t, step c s op = .ok t ∧ Still t ∧ sent t.log = sent s.log := by
      have hc := hc op List.mem_cons_self
      cases op with
      | setup p t => exact hc.elim
      | reset => exact hc.elim
      | webDone r => exact hc.elim
      | taken => exact ⟨s, by simp [step, hs.pend], hs, rfl⟩
      | out d => exact ⟨s, by simp [step, dataOutStage, hs.rx], hs, rfl⟩
      | epIn n =>
        simp only [step]
        split
        · split
          · exact ⟨_, rfl, ⟨hs.len, hs.pend, hs.rx⟩, by simp⟩
          · exact ⟨_, rfl, hs, rfl⟩
        · exact ⟨_, rfl, hs, rfl⟩
      | epOut n =>
        simp only [step]
        split
        · split
          · exact ⟨_, rfl, ⟨hs.len, hs.pend, hs.rx⟩, by simp⟩
          · exact ⟨_, rfl, hs, rfl⟩
        · exact ⟨_, rfl, hs, rfl⟩
      | suspend => exact ⟨_, rfl, ⟨hs.len, hs.pend, hs.rx⟩, rfl⟩
      | resume => exact ⟨_, rfl, ⟨hs.len, hs.pend, hs.rx⟩, rfl⟩
      | disconnect => exact ⟨_, rfl, ⟨hs.len, hs.pend, hs.rx⟩, rfl⟩
      | acquire o => exact ⟨_, rfl, ⟨hs.len, hs.pend, hs.rx⟩, rfl⟩
      | release o => exact ⟨_, rfl, ⟨hs.len, hs.pend, hs.rx⟩, rfl⟩
      | webTimeout t =>
        simp only [step]
        split
        · exact ⟨_, rfl, ⟨hs.len, hs.pend, hs.rx⟩, rfl⟩
        · exact ⟨_, rfl, hs, rfl⟩
      | write off d =>
        have hb : off + d.length ≤ s.buf.length := by rw [hs.len]; exact hc.2
        simp only [step, wrRange_ok hb, ok_bind, pure_eq_ok]
        refine ⟨_, rfl, ⟨?_, hs.pend, hs.rx⟩, rfl⟩
        simp only [List.length_append, List.length_take, List.length_drop, hs.len]
        rw [hs.len] at hb; omega
    obtain ⟨t, e, ht, hl⟩ := key
    obtain ⟨u, e', hl'⟩ := ih ht fun o ho => hc o (List.mem_cons_of_mem _ ho)
    exact ⟨u, by simp only [run, e, ok_bind, e'], hl'.trans hl⟩

/-- A descriptor that does not exist, or of which nothing is asked for: nothing is sent. -/
theorem no_descriptor {c : Cfg} {s : St} {r : Req} (hb : s.buf.length = 1342)
    (h : Spec.Usb.descriptor c (hi r.value) (lo r.value) = none ∨ r.length = 0) :
    ∃ u, getDescriptor c (began s r.length) r = .ok u ∧ Still u ∧ sent u.log = sent s.log := by
  rcases h with h | h
  · simp only [Spec.Usb.descriptor] at h
    simp only [getDescriptor, Usb.descriptor]
    by_cases t1 : hi r.value = 1
    · rw [if_pos t1] at h; cases h
    rw [if_neg t1] at h
    by_cases t2 : hi r.value = 2
    · rw [if_pos t2] at h; cases h
    rw [if_neg t2] at h
    by_cases t3 : hi r.value = 0x0F
    · rw [if_pos t3] at h; cases h
    rw [if_neg t3] at h
    simp only [t1, t2, t3, if_false]
    by_cases t4 : hi r.value = 3
    · rw [if_pos t4] at h
      simp only [t4, if_true, userStr]
      by_cases i0 : lo r.value = 0
      · rw [if_pos i0] at h; cases h
      rw [if_neg i0] at h
      by_cases i1 : lo r.value = 1
      · rw [if_pos i1] at h; cases h
      rw [if_neg i1] at h
      by_cases i2 : lo r.value = 2
      · rw [if_pos i2] at h; cases h
      rw [if_neg i2] at h
      by_cases i3 : lo r.value = 3
      · rw [if_pos i3] at h; cases h
      rw [if_neg i3] at h
      by_cases i4 : lo r.value = 0x10
      · rw [if_pos i4] at h; cases h
      rw [if_neg i4] at h
      by_cases i5 : lo r.value = 0x11
      · rw [if_pos i5] at h; cases h
      rw [if_neg i5] at h
      by_cases i6 : lo r.value = 0x12
      · rw [if_pos i6] at h; cases h
      rw [if_neg i6] at h
      by_cases i7 : lo r.value = 0x13
      · rw [if_pos i7] at h; cases h
      simp only [i0, i1, i2, i3, i4, i5, i6, i7, if_false, pure_eq_ok, ok_bind, sendDesc, ne_eq, not_true_eq_false, false_and]
      exact ⟨_, rfl, ⟨hb, rfl, rfl⟩, rfl⟩
    · simp only [t4, if_false, pure_eq_ok, ok_bind]
      exact ⟨_, rfl, ⟨hb, rfl, rfl⟩, by simp [ctlError, began]⟩
  · have hz (t : St) (p : Src) (n : Nat) : sendDesc c t p n r = .ok t := by simp [sendDesc, h]
    have hcomp (d : Bytes) (hd : d.length ≤ 1342) : ∃ u, compose (began s r.length) d = .ok u ∧ Still u ∧ sent u.log = sent s.log :=
      ⟨_, compose_ok (s := began s r.length) hb hd, ⟨compose_len (s := began s r.length) hb hd, rfl, rfl⟩, rfl⟩
    have hs0 : Still (began s r.length) := ⟨hb, rfl, rfl⟩
    have hstr (x : List Char) (hx : x.length * 2 + 2 ≤ 1342) : ∃ u, compose (began s r.length) (stringDesc x) = .ok u ∧ Still u ∧ sent u.log = sent s.log :=
      hcomp _ (by rw [stringDesc_length]; exact hx)
    simp only [getDescriptor, Usb.descriptor]
    by_cases t1 : hi r.value = 0x0F
    · simp only [t1, if_true]
      obtain ⟨u, e, hu⟩ := hcomp (bosDesc c) (by simp [bosDesc])
      exact ⟨u, by simp only [e, ok_bind, pure_eq_ok, hz], hu⟩
    by_cases t2 : hi r.value = 1
    · simp only [t2, show ¬ ((1 : Byte) = 0x0F) from by decide, if_true, if_false]
      exact ⟨_, by simp only [ok_bind, pure_eq_ok, hz], hs0, rfl⟩
    by_cases t3 : hi r.value = 2
    · simp only [t3, show ¬ ((2 : Byte) = 0x0F) from by decide, show ¬ ((2 : Byte) = 1) from by decide, if_true, if_false, configDesc_eq]
      obtain ⟨u, e, hu⟩ := hcomp (configuration c) (by rw [configuration_length]; split <;> decide)
      exact ⟨u, by simp only [e, ok_bind, pure_eq_ok, hz], hu⟩
    by_cases t4 : hi r.value = 3
    · simp only [t4, show ¬ ((3 : Byte) = 0x0F) from by decide, show ¬ ((3 : Byte) = 1) from by decide, show ¬ ((3 : Byte) = 2) from by decide,
        if_true, if_false]
      have fin (x : List Char) (hx : x.length * 2 + 2 ≤ 1342) :
          ∃ u, ((do
            let s ← compose (began s r.length) (stringDesc x)
            pure (some (s, Src.shared, x.length * 2 + 2)) : C _) >>= fun o => match o with
              | none => (pure (ctlError (began s r.length)) : C St)
              | some (s, p, len) => sendDesc c s p len r) = .ok u ∧ Still u ∧ sent u.log = sent s.log := by
        obtain ⟨u, e, hu⟩ := hstr x hx
        exact ⟨u, by rw [e]; exact hz _ _ _, hu⟩
      by_cases i0 : lo r.value = 0
      · simp only [i0, if_true]
        exact ⟨_, by simp only [ok_bind, pure_eq_ok, hz], hs0, rfl⟩
      by_cases i1 : lo r.value = 1
      · simp only [i1, show ¬ ((1 : Byte) = 0) from by decide, if_true, if_false]
        exact fin _ (by decide)
      by_cases i2 : lo r.value = 2
      · simp only [i2, show ¬ ((2 : Byte) = 0) from by decide, show ¬ ((2 : Byte) = 1) from by decide, if_true, if_false]
        exact fin _ (by decide)
      by_cases i3 : lo r.value = 3
      · simp only [i3, show ¬ ((3 : Byte) = 0) from by decide, show ¬ ((3 : Byte) = 1) from by decide, show ¬ ((3 : Byte) = 2) from by decide,
          if_true, if_false]
        exact fin _ (by simp [serialStr, hexByte])
      simp only [i0, i1, i2, i3, if_false]
      cases hu : userStr (lo r.value) with
      | none => exact ⟨_, by simp only [ok_bind, pure_eq_ok, hz], hs0, rfl⟩
      | some x =>
        refine fin x ?_
        simp only [userStr] at hu
        split at hu
        · cases hu; decide
        split at hu
        · cases hu; decide
        split at hu
        · cases hu; decide
        split at hu
        · cases hu; decide
        cases hu
    · simp only [t1, t2, t3, t4, if_false, pure_eq_ok, ok_bind]
      exact ⟨_, rfl, ⟨hb, rfl, rfl⟩, by simp [ctlError, began]⟩

/-- Whatever the shared buffer contained before, and in whatever state the device is, a GET_DESCRIPTOR request to it gives the
descriptor that belongs to the type and the index, cut to the length asked for, or nothing. So it tells nothing of what the
applets have left in the buffer.
Not covered: the configuration descriptor of a device without a keyboard (`C81_leak`). -/
theorem C81_descriptors_partial {c : Cfg} {s : St} {v i l : UInt16} {tick : Nat} {h : List Op}
    (hmps : 0 < c.mps) (ht : Tables c) (hb : s.buf.length = 1342) (hk : hi v = 2 → c.ifKbd ≠ 0xFF)
    (hh : ∀ op ∈ h, Calm ((Spec.Usb.descriptor c (hi v) (lo v)).getD []).length op) :
    ∃ s', run c s (.setup (packet 0x80 6 v i l) tick :: h) = .ok s' ∧
      sent s'.log = sent s.log ++
        match Spec.Usb.descriptor c (hi v) (lo v) with
        | some d => if l = 0 then [] else (packets c.mps (d.take l.toNat) l.toNat).take (1 + taken h)
        | none => [] := by
  cases hd : Spec.Usb.descriptor c (hi v) (lo v) with
  | none =>
    obtain ⟨u, e, hu, hl⟩ := no_descriptor (c := c) (s := s) (r := ⟨0x80, 6, v, i, l⟩) hb (.inl hd)
    obtain ⟨w, e', hl'⟩ := run_still h hu hh
    refine ⟨w, ?_, by simp [hl', hl]⟩
    simp only [run, step, parse_packet, ok_bind, stage_dev (show (0x80 : Byte) ≠ 0xC0 by decide) (show (0x80 : Byte) &&& 0x1F = 0 by decide)]
    simp only [stdDevReq, if_true]
    simp only at e
    rw [e]
    exact e'
  | some d =>
    simp only
    by_cases hl0 : l = 0
    · subst hl0
      obtain ⟨u, e, hu, hl⟩ := no_descriptor (c := c) (s := s) (r := ⟨0x80, 6, v, i, 0⟩) hb (.inr rfl)
      obtain ⟨w, e', hl'⟩ := run_still h hu hh
      refine ⟨w, ?_, by simp [hl', hl]⟩
      simp only [run, step, parse_packet, ok_bind, stage_dev (show (0x80 : Byte) ≠ 0xC0 by decide) (show (0x80 : Byte) &&& 0x1F = 0 by decide)]
      simp only [stdDevReq, if_true]
      simp only at e
      rw [e]
      exact e'
    · rw [if_neg hl0]
      obtain ⟨w, e, hl, _⟩ := C80_transfer_partial (h := h) (tick := tick) hmps ht hb hl0 (Has.descriptor (i := i) hd) (fun _ => hk) (by simp) (by simp)
        (fun op ho => by
          have := hh op ho
          rw [hd] at this
          revert this
          cases op <;> simp only [Calm, imp_self]
          rename_i off x
          intro h1
          refine ⟨Nat.le_trans ?_ h1.1, h1.2⟩
          simp only [Option.getD_some, List.length_take]
          exact Nat.min_le_right _ _)
      exact ⟨w, e, hl⟩

/-- The configuration descriptor of a device without a keyboard has 127 bytes, but a host that asks for more gets 32 bytes of
the shared buffer behind it. -/
theorem C81_leak {c : Cfg} {s : St} {v i l : UInt16} {tick : Nat} {h : List Op} (hmps : 0 < c.mps) (hb : s.buf.length = 1342)
    (hv : hi v = 2) (hk : c.ifKbd = 0xFF) (hl : l ≠ 0) (hh : ∀ op ∈ h, Calm 159 op) :
    (configuration c).length = 127 ∧
    ∃ s', run c s (.setup (packet 0x80 6 v i l) tick :: h) = .ok s' ∧
      sent s'.log = sent s.log ++
        (packets c.mps ((configuration c ++ (s.buf.drop 127).take 32).take l.toNat) l.toNat).take (1 + taken h) := by
  have hlen : (configuration c).length = 127 := by rw [configuration_length, if_neg (by simp [hk])]
  refine ⟨hlen, ?_⟩
  have hle : (configuration c).length ≤ 1342 := by omega
  have hl159 : (configuration c ++ (s.buf.drop 127).take 32).length = 159 := by simp [hlen, hb]
  have e0 : getDescriptor c (began s l) ⟨0x80, 6, v, i, l⟩ =
      sendDesc c { began s l with buf := configuration c ++ s.buf.drop 127 } .shared 159 ⟨0x80, 6, v, i, l⟩ := by
    simp only [getDescriptor, Usb.descriptor]
    simp only [hv, show ¬ ((2 : Byte) = 0x0F) from by decide, show ¬ ((2 : Byte) = 1) from by decide, if_false, if_true, configDesc_eq, ok_bind]
    rw [compose_ok (s := began s l) (d := configuration c) hb hle]
    simp only [ok_bind, pure_eq_ok, hlen]
    rfl
  obtain ⟨u, e, hne, hs', hlog, hx⟩ := sendDesc_begin (c := c) (s := s) (t := { began s l with buf := configuration c ++ s.buf.drop 127 })
    (p := .shared) (d := configuration c ++ (s.buf.drop 127).take 32) (r := ⟨0x80, 6, v, i, l⟩) hmps hl
    (by intro h0; rw [h0] at hl159; simp at hl159)
    (by
      show _ <+: configuration c ++ s.buf.drop 127
      exact (List.prefix_append_right_inj _).mpr (List.take_prefix _ _))
    (by simp [hlen, hb]) rfl rfl rfl
  obtain ⟨w, e', hlog', _⟩ := run_xfer hmps h hs' hx (fun op ho => by
    have := hh op ho
    revert this
    cases op <;> simp only [Calm, imp_self]
    rename_i off x
    intro h1
    refine ⟨Nat.le_trans ?_ h1.1, h1.2⟩
    rw [List.length_take, hl159]
    exact Nat.min_le_right _ _)
  refine ⟨w, ?_, ?_⟩
  · simp only [run, step, parse_packet, ok_bind, stage_dev (show (0x80 : Byte) ≠ 0xC0 by decide) (show (0x80 : Byte) &&& 0x1F = 0 by decide)]
    simp only [stdDevReq, if_true]
    rw [e0, ← hl159, e]
    exact e'
  · rw [hlog', hlog, List.append_assoc]
    congr 1
    cases packets c.mps _ l.toNat with
    | nil => simp
    | cons a x => simp [Nat.add_comm 1]

end Verif.Usb
