import Verif.Props.UsbSafe
/-
C85: the data of a WebUSB command is what the host sent.
-/
namespace Verif.Usb
open Verif.Spec.Usb

/-- `off` of the `data.length` bytes of a command are there. -/
structure Recv (c : Cfg) (data : Bytes) (off : Nat) (l : List Bytes) (s : St) : Prop where
  dev : s.dev = .configured
  e0 : s.e0 = .dataOut
  rem : s.outRem = data.length - off
  rx : ∃ n, s.rx = some (some off, n) ∧ min n c.mps = min (data.length - off) c.mps
  len : s.buf.length = 1342
  got : s.buf.take off = data.take off
  web : s.web = .recving
  size : s.webSize = data.length
  owner : s.owner = WebUsb.ownerWeb
  pend : s.pend = false
  log : sent s.log = l

theorem sent_cons (e : Ev) (l : List Ev) : sent (e :: l) = sent l ++ (match e with | .tx d => [d] | _ => []) := by
  cases e <;> simp [sent]

/-- Nothing but a packet of the host matters. -/
theorem recv_other {c : Cfg} {data : Bytes} {off : Nat} {l : List Bytes} {s : St} {op : Op} (h : Recv c data off l s) (ho : off ≤ data.length)
    (hw : Waiting data.length op) (hn : ∀ d, op ≠ .out d) : ∃ t, step c s op = .ok t ∧ Recv c data off l t := by
  cases op with
  | setup => exact hw.elim
  | reset => exact hw.elim
  | suspend => exact hw.elim
  | resume => exact hw.elim
  | disconnect => exact hw.elim
  | out d => exact absurd rfl (hn d)
  | taken => exact ⟨s, by simp [step, h.pend], h⟩
  | epIn n =>
    simp only [step, h.dev, if_true]
    split
    · exact ⟨_, rfl, ⟨rfl, h.e0, h.rem, h.rx, h.len, h.got, h.web, h.size, h.owner, h.pend, (sent_cons _ _).trans (by rw [h.log]; simp)⟩⟩
    · exact ⟨s, rfl, h⟩
  | epOut n =>
    simp only [step, h.dev, if_true]
    split
    · exact ⟨_, rfl, ⟨rfl, h.e0, h.rem, h.rx, h.len, h.got, h.web, h.size, h.owner, h.pend, (sent_cons _ _).trans (by rw [h.log]; simp)⟩⟩
    · exact ⟨s, rfl, h⟩
  | write o d =>
    have hd : o + d.length ≤ s.buf.length := by rw [h.len]; exact hw.2
    have h1 := hw.1
    have hl := h.len
    simp only [step, wrRange_ok hd, ok_bind, pure_eq_ok]
    refine ⟨_, rfl, ⟨h.dev, h.e0, h.rem, h.rx, ?_, ?_, h.web, h.size, h.owner, h.pend, h.log⟩⟩
    · simp only [List.length_append, List.length_take, List.length_drop]; omega
    · show (s.buf.take o ++ d ++ s.buf.drop (o + d.length)).take off = _
      rw [List.append_assoc, List.take_append_of_le_length (by simp only [List.length_take]; omega), List.take_take, Nat.min_eq_left (by omega)]
      exact h.got
  | acquire o =>
    refine ⟨_, rfl, ⟨h.dev, h.e0, h.rem, h.rx, h.len, h.got, h.web, h.size, ?_, h.pend, h.log⟩⟩
    show Apdu.acquireCas s.owner o = WebUsb.ownerWeb
    rw [h.owner]; rfl
  | release o =>
    refine ⟨_, rfl, ⟨h.dev, h.e0, h.rem, h.rx, h.len, h.got, h.web, h.size, ?_, h.pend, h.log⟩⟩
    show Apdu.releaseCas s.owner o = WebUsb.ownerWeb
    rw [h.owner, Apdu.releaseCas, Apdu.cas, if_neg]
    intro e
    exact hw e.symm
  | webDone r => exact ⟨s, by simp [step, h.web], h⟩
  | webTimeout tick => exact ⟨s, by simp [step, h.web], h⟩

theorem take_write {b x data : Bytes} {off : Nat} (hb : off + x.length ≤ b.length) (hg : b.take off = data.take off)
    (hx : x = (data.drop off).take x.length) :
    (b.take off ++ x ++ b.drop (off + x.length)).take (off + x.length) = data.take (off + x.length) := by
  rw [List.take_append_of_le_length (by simp only [List.length_append, List.length_take]; omega),
    List.take_of_length_le (by simp only [List.length_append, List.length_take]; omega), hg, List.take_add, ← hx]

/-- A full packet that is not the last. -/
theorem recv_out {c : Cfg} {data : Bytes} {off : Nat} {l : List Bytes} {s : St} (h : Recv c data off l s) (hd : data.length ≤ 1342)
    (hm : off + c.mps < data.length) :
    ∃ t, step c s (.out ((data.drop off).take c.mps)) = .ok t ∧ Recv c data (off + c.mps) l t := by
  obtain ⟨n, hx, hn⟩ := h.rx
  have hl := h.len
  have hn' : min n c.mps = c.mps := by omega
  have hlen : ((data.drop off).take c.mps).length = c.mps := by simp only [List.length_take, List.length_drop]; omega
  have e1 : ((data.drop off).take c.mps).take (min n c.mps) = (data.drop off).take c.mps := by rw [hn', List.take_take, Nat.min_self]
  have hw : off + ((data.drop off).take c.mps).length ≤ s.buf.length := by omega
  simp only [step, dataOutStage, hx, e1, wrRange_ok hw, ok_bind, pure_eq_ok, h.e0, ne_eq, not_true, if_false, h.rem]
  rw [if_pos (by omega)]
  refine ⟨_, rfl, ⟨h.dev, rfl, ?_, ⟨min (data.length - off - c.mps) c.mps, ?_, ?_⟩, ?_, ?_, h.web, h.size, h.owner, h.pend, h.log⟩⟩
  · show data.length - off - c.mps = _; omega
  · simp only [prepareRx, Option.map, hlen]
  · omega
  · simp only [prepareRx, List.length_append, List.length_drop, List.length_take] at *; omega
  · show (s.buf.take off ++ _ ++ s.buf.drop _).take (off + c.mps) = data.take (off + c.mps)
    have := take_write (data := data) hw h.got (by rw [hlen])
    rw [hlen] at this ⊢
    exact this

/-- The last packet. -/
theorem recv_last {c : Cfg} {data : Bytes} {off : Nat} {l : List Bytes} {s : St} (h : Recv c data off l s) (hd : data.length ≤ 1342)
    (hm : data.length ≤ off + c.mps) (ho : off ≤ data.length) :
    ∃ t, step c s (.out ((data.drop off).take c.mps)) = .ok t ∧ t.web = .process ∧ t.webSize = data.length ∧ t.owner = WebUsb.ownerWeb ∧
      t.buf.take data.length = data ∧ t.log = .tx [] :: .rxReady :: s.log := by
  obtain ⟨n, hx, hn⟩ := h.rx
  have hl := h.len
  have hlen : ((data.drop off).take c.mps).length = data.length - off := by simp only [List.length_take, List.length_drop]; omega
  have e1 : ((data.drop off).take c.mps).take (min n c.mps) = (data.drop off).take c.mps := by
    apply List.take_of_length_le; omega
  have hw : off + ((data.drop off).take c.mps).length ≤ s.buf.length := by omega
  have e2 (t : St) : rdSrc t (.const []) 0 (min 0 c.mps) = .ok [] := by simp [rdSrc, rdRange]
  simp only [step, dataOutStage, hx, e1, wrRange_ok hw, ok_bind, pure_eq_ok, h.e0, ne_eq, not_true, if_false, h.rem]
  rw [if_neg (by omega)]
  simp only [h.dev, if_true, ctlSendStatus, transmit, e2, ok_bind, pure_eq_ok]
  refine ⟨_, rfl, rfl, h.size, h.owner, ?_, rfl⟩
  show (s.buf.take off ++ _ ++ s.buf.drop _).take data.length = data
  have := take_write (data := data) hw h.got (by
    rw [hlen, List.take_of_length_le (by simp only [List.length_drop]; omega), List.take_of_length_le (by simp only [List.length_drop]; omega)])
  rw [hlen, show off + (data.length - off) = data.length by omega, List.take_length] at this
  rw [hlen, show off + (data.length - off) = data.length by omega]
  exact this

theorem recv_run {c : Cfg} {data : Bytes} (hmps : 0 < c.mps) (hd : data.length ≤ 1342) {l : List Bytes} {x : Bytes} {h : List Op} :
    ∀ {off : Nat} {s : St}, Recv c data off l s → off < data.length → (∀ op ∈ h, Waiting data.length op) →
      outs h ++ [x] = chunks c.mps (data.drop off) →
      ∃ t, run c s (h ++ [.out x]) = .ok t ∧ t.web = .process ∧ t.webSize = data.length ∧ t.owner = WebUsb.ownerWeb ∧
        t.buf.take data.length = data ∧ sent t.log = l ++ [[]] := by
  induction h with
  | nil =>
    intro off s hr ho _ hx
    have hne : data.drop off ≠ [] := by intro e; have := congrArg List.length e; simp at this; omega
    rw [chunks_cons hmps hne] at hx
    injection hx with h1 h2
    have hm : data.length ≤ off + c.mps := by
      apply Classical.byContradiction
      intro hc
      have hne' : (data.drop off).drop c.mps ≠ [] := by intro e; have := congrArg List.length e; simp at this; omega
      rw [chunks_cons hmps hne'] at h2; cases h2
    obtain ⟨t, e, a1, a2, a3, a4, a5⟩ := recv_last hr hd hm (by omega)
    refine ⟨t, ?_, a1, a2, a3, a4, ?_⟩
    · show run c s [.out x] = _
      rw [h1, run, e]; rfl
    · rw [a5, sent_cons, sent_cons, hr.log]; simp
  | cons op h ih =>
    intro off s hr ho hw hx
    have hw' : ∀ o ∈ h, Waiting data.length o := fun o hm => hw o (.tail _ hm)
    by_cases hop : ∃ d, op = .out d
    · obtain ⟨d, rfl⟩ := hop
      have hne : data.drop off ≠ [] := by intro e; have := congrArg List.length e; simp at this; omega
      rw [chunks_cons hmps hne] at hx
      have hx : d :: (outs h ++ [x]) = _ := hx
      injection hx with h1 h2
      have hm : off + c.mps < data.length := by
        apply Classical.byContradiction
        intro hc
        rw [List.drop_drop, List.drop_eq_nil_of_le (by omega), chunks_nil] at h2
        simp at h2
      obtain ⟨t, e, ht⟩ := recv_out hr hd hm
      rw [List.drop_drop] at h2
      obtain ⟨u, e', hu⟩ := ih ht hm hw' h2
      refine ⟨u, ?_, hu⟩
      rw [h1, List.cons_append, run, e, ok_bind, e']
    · obtain ⟨t, e, ht⟩ := recv_other hr (by omega) (hw op (.head _)) (fun d hd => hop ⟨d, hd⟩)
      have hx : outs h ++ [x] = chunks c.mps (data.drop off) := by
        rw [← hx]
        cases op <;> first | rfl | exact absurd ⟨_, rfl⟩ hop
      obtain ⟨u, e', hu⟩ := ih ht ho hw' hx
      exact ⟨u, by rw [List.cons_append, run, e, ok_bind, e'], hu⟩

/-- **C85.** A WebUSB command that the device accepts, and whose data the host sends in full packets, reaches the
interpreter as it was sent, whatever else happens meanwhile; the transfer is acknowledged after that, and only once. Missing: hosts that send
packets which are neither full nor the last, `C85_refuted`. -/
theorem C85_command_partial {c : Cfg} {s : St} {v : UInt16} {tick : Nat} {data : Bytes} {x : Bytes} {h : List Op}
    (hmps : 0 < c.mps) (ht : Tables c) (hb : s.buf.length = 1342) (hdev : s.dev = .configured) (hweb : s.web = .idle ∨ s.web = .hold)
    (hown : s.owner = Apdu.ownerNone ∨ s.owner = WebUsb.ownerWeb) (h0 : 0 < data.length) (h1 : data.length ≤ 1340)
    (hh : ∀ op ∈ h, Waiting data.length op) (hx : outs h ++ [x] = chunks c.mps data) :
    ∃ t, run c s (.setup (packet 0x41 0 v (wideByte c.ifWeb) (UInt16.ofNat data.length)) tick :: (h ++ [.out x])) = .ok t ∧
      t.web = .process ∧ t.webSize = data.length ∧ t.owner = WebUsb.ownerWeb ∧ t.buf.take data.length = data ∧
      sent t.log = sent s.log ++ [[]] := by
  have hl : (UInt16.ofNat data.length).toNat = data.length := by
    rw [UInt16.toNat_ofNat']; omega
  have hl0 : UInt16.ofNat data.length ≠ 0 := by
    intro e; rw [e] at hl; have : (0 : UInt16).toNat = 0 := rfl; omega
  have hown' : Apdu.acquireCas s.owner WebUsb.ownerWeb = WebUsb.ownerWeb := by
    rcases hown with e | e <;> rw [e] <;> rfl
  have e0 : ∃ u, step c s (.setup (packet 0x41 0 v (wideByte c.ifWeb) (UInt16.ofNat data.length)) tick) = .ok u ∧ Recv c data 0 (sent s.log) u := by
    simp only [step, parse_packet, ok_bind, stage_itf (show (0x41 : Byte) ≠ 0xC0 by decide) (show (0x41 : Byte) &&& 0x1F = 1 by decide)]
    rw [itf_setup (s := began s _) (r := ⟨0x41, 0, v, wideByte c.ifWeb, UInt16.ofNat data.length⟩) (i := c.ifWeb) hdev hl0 rfl ht.web, classSetup_web (by decide) ht.ctapWeb ht.webKbd]
    simp only [webSetup, if_true]
    rw [if_neg (by rcases hweb with e | e <;> simp [began, e])]
    simp only [began, hown']
    rw [if_neg (by decide), hl, if_neg (by omega)]
    simp only [ok_bind]
    exact ⟨_, rfl, ⟨hdev, rfl, rfl, ⟨_, rfl, by omega⟩, hb, rfl, rfl, rfl, rfl, rfl, rfl⟩⟩
  obtain ⟨u, e, hr⟩ := e0
  obtain ⟨t, e', r⟩ := recv_run hmps (by omega) hr h0 hh hx
  exact ⟨t, by rw [run, e, ok_bind, e'], r⟩

end Verif.Usb
