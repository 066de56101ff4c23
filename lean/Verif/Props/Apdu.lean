import Verif.Lemmas.Apdu
/-
C05-C11: APDU decoding, chaining, routing and buffer ownership.
-/
set_option linter.unusedSimpArgs false
set_option maxRecDepth 4000
namespace Verif.Apdu
open Verif.Spec.Apdu

/-! ## C05 -/

theorem le_short {b : Byte} : 1 ≤ (if b.toNat = 0 then 0x100 else b.toNat) ∧
    (if b.toNat = 0 then 0x100 else b.toNat) ≤ 256 ∧
    UInt8.ofNat (if b.toNat = 0 then 0x100 else b.toNat) = b := by
  have := b.toNat_lt
  split
  · next h =>
    refine ⟨by omega, by omega, ?_⟩
    apply UInt8.toNat_inj.1; rw [toNat_ofNat8, h]
  · refine ⟨by omega, by omega, ?_⟩
    simp

theorem le_ext {a b : Byte} : 1 ≤ (if be16 a b = 0 then 0x10000 else be16 a b) ∧
    (if be16 a b = 0 then 0x10000 else be16 a b) ≤ 65536 ∧
    be2 (if be16 a b = 0 then 0x10000 else be16 a b) = [a, b] := by
  have ha := a.toNat_lt
  have hb := b.toNat_lt
  have hlt : be16 a b < 65536 := by unfold be16; omega
  split
  · next h => exact ⟨by omega, by omega, by rw [← be2_be16 a b, h]; decide⟩
  · exact ⟨by omega, by omega, be2_be16 a b⟩

theorem le_short_inv {ne : Nat} (h : 1 ≤ ne ∧ ne ≤ 256) :
    (if (UInt8.ofNat ne).toNat = 0 then 0x100 else (UInt8.ofNat ne).toNat) = ne := by
  rw [toNat_ofNat8]; split <;> omega

theorem le_ext_inv {ne : Nat} (h : 1 ≤ ne ∧ ne ≤ 65536) :
    (if be16 (UInt8.ofNat (ne / 256)) (UInt8.ofNat ne) = 0 then 0x10000
      else be16 (UInt8.ofNat (ne / 256)) (UInt8.ofNat ne)) = ne := by
  rw [be16_be2]; split <;> omega

theorem tailDecode_of_encodes {cla ins p1 p2 : Byte} {data : Bytes} {ne : Nat} {cmd : Bytes}
    (h : Encodes cla ins p1 p2 data ne cmd) :
    ∃ t, cmd = cla :: ins :: p1 :: p2 :: t ∧
      tailDecode cla ins p1 p2 t = some ⟨cla, ins, p1, p2, data, ne⟩ := by
  cases h with
  | case1 => exact ⟨_, rfl, rfl⟩
  | case2S _ h => exact ⟨[UInt8.ofNat ne], rfl, by simp only [tailDecode, le_short_inv h]⟩
  | case3S _ h =>
    refine ⟨UInt8.ofNat data.length :: data, by simp, ?_⟩
    rcases data with _ | ⟨d, ds⟩
    · simp at h
    · have e : (UInt8.ofNat (d :: ds).length).toNat = (d :: ds).length := by
        rw [toNat_ofNat8]; simp at h ⊢; omega
      have e' : (d :: ds).length > 0 := by simp
      simp only [tailDecode, e, if_pos e', if_true]
  | case4S _ h _ h' =>
    refine ⟨UInt8.ofNat data.length :: (data ++ [UInt8.ofNat ne]), by simp, ?_⟩
    have e : (UInt8.ofNat data.length).toNat = data.length := by
      rw [toNat_ofNat8]; omega
    obtain ⟨d, ds, hd⟩ : ∃ d ds, data ++ [UInt8.ofNat ne] = d :: ds := by
      rcases data with _ | ⟨d, ds⟩
      · simp at h
      · exact ⟨d, ds ++ [UInt8.ofNat ne], rfl⟩
    have hl : (data ++ [UInt8.ofNat ne]).length = data.length + 1 := by simp
    have hlast : (data ++ [UInt8.ofNat ne]).getLast (by simp) = UInt8.ofNat ne := by simp
    have hdrop : (data ++ [UInt8.ofNat ne]).dropLast = data := by simp
    simp only [hd] at hl hlast hdrop ⊢
    have e1 : data.length > 0 := by omega
    have e2 : ¬ (data.length + 1 = data.length) := by omega
    simp only [tailDecode, e, if_pos e1, hl, if_neg e2, dif_pos, hlast, hdrop, le_short_inv h']
  | case2E _ h =>
    exact ⟨[0, UInt8.ofNat (ne / 256), UInt8.ofNat ne], rfl, by simp [tailDecode, le_ext_inv h]⟩
  | case3E _ h =>
    refine ⟨0 :: (be2 data.length ++ data), by simp, ?_⟩
    have e : be16 (UInt8.ofNat (data.length / 256)) (UInt8.ofNat data.length) = data.length := by
      rw [be16_be2]; omega
    unfold be2
    generalize UInt8.ofNat (data.length / 256) = a at *
    generalize UInt8.ofNat data.length = b at *
    rcases data with _ | ⟨d, ds⟩
    · simp at h
    · simp [tailDecode, e]
  | case4E _ h _ h' =>
    refine ⟨0 :: (be2 data.length ++ data ++ be2 ne), by simp, ?_⟩
    have e : be16 (UInt8.ofNat (data.length / 256)) (UInt8.ofNat data.length) = data.length := by
      rw [be16_be2]; omega
    have e' := le_ext_inv h'
    unfold be2
    generalize UInt8.ofNat (data.length / 256) = a at *
    generalize UInt8.ofNat data.length = b at *
    generalize UInt8.ofNat (ne / 256) = a' at *
    generalize UInt8.ofNat ne = b' at *
    rcases data with _ | ⟨d, ds⟩
    · simp at h
    · simp [tailDecode, e, e']

theorem encodes_of_tailDecode {cla ins p1 p2 : Byte} {t : Bytes} {c : Capdu}
    (h : tailDecode cla ins p1 p2 t = some c) :
    Encodes c.cla c.ins c.p1 c.p2 c.data c.le (cla :: ins :: p1 :: p2 :: t) := by
  unfold tailDecode at h
  split at h
  · cases h; exact .case1
  · next b =>
    cases h
    obtain ⟨h1, h2, h3⟩ := le_short (b := b)
    have := Encodes.case2S (cla := cla) (ins := ins) (p1 := p1) (p2 := p2) _ ⟨h1, h2⟩
    rw [h3] at this
    exact this
  · next b t hne =>
    have hb := b.toNat_lt
    split at h
    · split at h
      · next hpos hl =>
        cases h
        have := Encodes.case3S (cla := cla) (ins := ins) (p1 := p1) (p2 := p2) t ⟨by omega, by omega⟩
        rw [hl] at this
        simpa using this
      · split at h
        · next hpos _ hl =>
          cases h
          have hn : t ≠ [] := by rintro rfl; simp at hl
          obtain ⟨h1, h2, h3⟩ := le_short (b := t.getLast hn)
          have := Encodes.case4S (cla := cla) (ins := ins) (p1 := p1) (p2 := p2) t.dropLast
            ⟨by simp; omega, by simp; omega⟩ _ ⟨h1, h2⟩
          rw [h3] at this
          have e : t.dropLast.length = b.toNat := by simp; omega
          rw [e] at this
          have e2 : t = t.dropLast ++ [t.getLast hn] := (List.dropLast_concat_getLast hn).symm
          have e3 : cla :: ins :: p1 :: p2 :: b :: t =
              [cla, ins, p1, p2] ++ [UInt8.ofNat b.toNat] ++ t.dropLast ++ [t.getLast hn] := by
            conv => lhs; rw [e2]
            simp
          rw [e3]
          exact this
        · cases h
    · next hz =>
      have hb0 : b = 0 := by apply UInt8.toNat_inj.1; simp; omega
      subst hb0
      split at h
      · next x y =>
        cases h
        obtain ⟨h1, h2, h3⟩ := le_ext (a := x) (b := y)
        have := Encodes.case2E (cla := cla) (ins := ins) (p1 := p1) (p2 := p2) _ ⟨h1, h2⟩
        rw [h3] at this
        exact this
      · next x y t _ =>
        have hlt : be16 x y < 65536 := by
          have := x.toNat_lt; have := y.toNat_lt; unfold be16; omega
        dsimp only at h
        split at h
        · cases h
        · next hnz =>
          split at h
          · next hl =>
            cases h
            have := Encodes.case3E (cla := cla) (ins := ins) (p1 := p1) (p2 := p2) t
              ⟨by omega, by omega⟩
            rw [hl, be2_be16] at this
            simpa using this
          · split at h
            · next hl =>
              split at h
              · next u v hd =>
                cases h
                obtain ⟨h1, h2, h3⟩ := le_ext (a := u) (b := v)
                have hlen : (t.take (be16 x y)).length = be16 x y := by simp; omega
                have := Encodes.case4E (cla := cla) (ins := ins) (p1 := p1) (p2 := p2)
                  (t.take (be16 x y)) ⟨by omega, by omega⟩ _ ⟨h1, h2⟩
                rw [h3, hlen, be2_be16, ← hd] at this
                simpa using this
              · cases h
            · cases h
      · cases h

/-- **C05.**  For every byte string, the decoder accepts it as the command `c` exactly when it is
one of the seven ISO 7816-4 encodings of `c`. -/
theorem C05_decode_iff (cmd : Bytes) (c : Capdu) :
    buildCapdu cmd = .ok (some c) ↔ Encodes c.cla c.ins c.p1 c.p2 c.data c.le cmd := by
  constructor
  · intro h
    rcases cmd with _ | ⟨cla, _ | ⟨ins, _ | ⟨p1, _ | ⟨p2, t⟩⟩⟩⟩
    · simp [buildCapdu] at h
    · simp [buildCapdu] at h
    · simp [buildCapdu] at h
    · simp [buildCapdu] at h
    · rw [buildCapdu_eq] at h
      exact encodes_of_tailDecode (by simpa using h)
  · intro h
    obtain ⟨t, rfl, ht⟩ := tailDecode_of_encodes h
    rw [buildCapdu_eq, ht]

/-- **C05.**  For every byte string the decoder terminates without reading or writing outside it. -/
theorem C05_never_oob (cmd : Bytes) : ∃ r, buildCapdu cmd = .ok r := by
  rcases cmd with _ | ⟨cla, _ | ⟨ins, _ | ⟨p1, _ | ⟨p2, t⟩⟩⟩⟩
  · exact ⟨none, by simp [buildCapdu]⟩
  · exact ⟨none, by simp [buildCapdu]⟩
  · exact ⟨none, by simp [buildCapdu]⟩
  · exact ⟨none, by simp [buildCapdu]⟩
  · exact ⟨_, buildCapdu_eq ..⟩

/-- Non-vacuity: a short case-4 command, an extended case-4 command, and a rejected one. -/
example : buildCapdu [0x00, 0xA4, 0x04, 0x00, 0x02, 0xAA, 0xBB, 0x00] =
    .ok (some ⟨0x00, 0xA4, 0x04, 0x00, [0xAA, 0xBB], 256⟩) := by decide
example : buildCapdu [0x00, 0xCB, 0x3F, 0xFF, 0x00, 0x00, 0x01, 0x5C, 0x01, 0x00] =
    .ok (some ⟨0x00, 0xCB, 0x3F, 0xFF, [0x5C], 256⟩) := by decide
example : buildCapdu [0x00, 0xCB, 0x3F, 0xFF, 0x05, 0x00] = .ok none := by decide
example : Encodes 0x00 0xA4 0x04 0x00 [0xAA, 0xBB] 256
    [0x00, 0xA4, 0x04, 0x00, 0x02, 0xAA, 0xBB, 0x00] :=
  .case4S [0xAA, 0xBB] (by decide) 256 (by decide)

/-! ## C06 -/

variable {σ : Type}

/-- Lemma: the state in which the first bytes `acc` of a chained command were received. -/
def heldSt (s : St σ) (c : Capdu) (acc : Bytes) : St σ :=
  { s with chain := holding s.chain (unchain c.cla) c.ins c.p1 c.p2 acc, pivState := pivAfter s }

theorem process_held (A : Applets σ) (s : St σ) (c h : Capdu) (acc : Bytes)
    (hb : s.chain.buf.length = bufSize) (he : ¬ Eject c) (ho : NotOffloaded s c.ins)
    (hh : unchain h.cla = unchain c.cla ∧ h.ins = c.ins ∧ h.p1 = c.p1 ∧ h.p2 = c.p2)
    (hlen : acc.length + c.data.length ≤ bufSize) :
    process A (heldSt s h acc) c =
      if isChained c.cla then .ok (heldSt s h (acc ++ c.data), ⟨[], SW_NO_ERROR⟩)
      else execLast A { heldSt s h (acc ++ c.data) with
        chain := { holding s.chain (unchain h.cla) h.ins h.p1 h.p2 (acc ++ c.data) with
          inChaining := false, le := c.le } } := by
  obtain ⟨e1, e2, e3, e4⟩ := hh
  simp only [heldSt, e1, e2, e3, e4]
  rw [process_chain A _ c he (notOffloaded_after ho _)]
  rw [apduInput_holding hb c acc hlen]
  simp only [ok_bind]
  cases isChained c.cla <;> simp [pivAfter_idem]

theorem process_overflow (A : Applets σ) (s : St σ) (c h : Capdu) (acc : Bytes)
    (he : ¬ Eject c) (ho : NotOffloaded s c.ins)
    (hh : unchain h.cla = unchain c.cla ∧ h.ins = c.ins ∧ h.p1 = c.p1 ∧ h.p2 = c.p2)
    (hlen : bufSize < acc.length + c.data.length) :
    process A (heldSt s h acc) c = .ok (heldSt s h acc, ⟨[], SW_CHECKING_ERROR⟩) := by
  obtain ⟨e1, e2, e3, e4⟩ := hh
  simp only [heldSt, e1, e2, e3, e4]
  rw [process_chain A _ c he (notOffloaded_after ho _)]
  rw [apduInput_overflow c acc hlen]
  simp [pivAfter_idem]

theorem process_fresh (A : Applets σ) (s : St σ) (c h : Capdu)
    (he : ¬ Eject c) (ho : NotOffloaded s c.ins)
    (hh : unchain h.cla = unchain c.cla ∧ h.ins = c.ins ∧ h.p1 = c.p1 ∧ h.p2 = c.p2)
    (hc : ¬ Continues s.chain c) :
    process A s c = process A (heldSt s h []) c := by
  obtain ⟨e1, e2, e3, e4⟩ := hh
  simp only [heldSt, e1, e2, e3, e4]
  rw [process_chain A s c he ho, process_chain A _ c he (notOffloaded_after ho _)]
  rw [apduInput_fresh c hc]
  simp [pivAfter_idem]

theorem exchange_held (A : Applets σ) (s : St σ) (cla ins p1 p2 : Byte)
    (hcla : isChained cla = false)
    (he : ¬ (cla ||| 0x10 = 0xFF ∧ ins = 0xEE ∧ p1 = 0xFF ∧ p2 = 0xEE))
    (hb : s.chain.buf.length = bufSize) (ho : NotOffloaded s ins)
    (last : Bytes) (le : Nat) (blocks : List (Bytes × Nat)) : ∀ (acc : Bytes),
    acc.length + (blocks.map Prod.fst).flatten.length + last.length ≤ bufSize →
    exchange A (heldSt s ⟨cla, ins, p1, p2, [], 0⟩ acc)
        (blocks.map (chainedBlock cla ins p1 p2) ++ [⟨cla, ins, p1, p2, last, le⟩]) =
      (process A (heldSt s ⟨cla, ins, p1, p2, [], 0⟩ [])
        ⟨cla, ins, p1, p2, acc ++ (blocks.map Prod.fst).flatten ++ last, le⟩ >>= fun p =>
        .ok (p.1, blocks.map (fun _ => ⟨[], 0x9000⟩) ++ [p.2])) := by
  have he1 : ∀ d n, ¬ Eject ⟨cla, ins, p1, p2, d, n⟩ :=
    fun d n h => isChained_cla_ne_ff hcla h.1
  induction blocks with
  | nil =>
    intro acc hlen
    simp only [List.map_nil, List.flatten_nil, List.length_nil, List.nil_append, exchange,
      List.append_nil] at hlen ⊢
    rw [process_held A s ⟨cla, ins, p1, p2, last, le⟩ ⟨cla, ins, p1, p2, [], 0⟩ acc hb (he1 _ _) ho ⟨rfl, rfl, rfl, rfl⟩
      (by simpa using hlen)]
    rw [process_held A s ⟨cla, ins, p1, p2, acc ++ last, le⟩ ⟨cla, ins, p1, p2, [], 0⟩ [] hb (he1 _ _) ho
      ⟨rfl, rfl, rfl, rfl⟩ (by simpa using hlen)]
    simp [hcla]
  | cons b bs ih =>
    intro acc hlen
    have hc : isChained (chainedBlock cla ins p1 p2 b).cla = true := isChained_or cla
    simp only [List.map_cons, List.cons_append, exchange, List.flatten_cons, List.length_append]
      at hlen ⊢
    rw [process_held A s (chainedBlock cla ins p1 p2 b) ⟨cla, ins, p1, p2, [], 0⟩ acc hb
      (fun h => he h) ho ⟨(unchain_or cla).symm, rfl, rfl, rfl⟩
      (by simp only [chainedBlock]; omega)]
    simp only [hc, if_true, ok_bind]
    rw [ih (acc ++ (chainedBlock cla ins p1 p2 b).data)
      (by simp only [chainedBlock, List.length_append]; omega)]
    simp only [chainedBlock, List.append_assoc]
    cases process A (heldSt s ⟨cla, ins, p1, p2, [], 0⟩ [])
      ⟨cla, ins, p1, p2, acc ++ (b.1 ++ ((bs.map Prod.fst).flatten ++ last)), le⟩ <;> rfl

/-- **C06.**  A command sent as any number of chained blocks followed by a final block behaves
exactly like the single command whose data is the concatenation of all blocks and whose Le is that
of the final block: every block but the last is answered with an empty 9000, and the final answer
and the resulting state (of every applet and of the dispatcher) are those of the single command.
Hypotheses: the total fits the buffer, no chain with the same header is already pending, and the
command is not one that the dispatcher handles without chaining. -/
theorem C06_chain_is_concatenation (A : Applets σ) (s : St σ) (cla ins p1 p2 : Byte)
    (hcla : isChained cla = false)
    (he : ¬ (cla ||| 0x10 = 0xFF ∧ ins = 0xEE ∧ p1 = 0xFF ∧ p2 = 0xEE))
    (hb : s.chain.buf.length = 1340) (ho : NotOffloaded s ins)
    (blocks : List (Bytes × Nat)) (last : Bytes) (le : Nat)
    (hfresh : ¬ Continues s.chain ⟨cla, ins, p1, p2, last, le⟩)
    (hlen : (blocks.map Prod.fst).flatten.length + last.length ≤ 1340) :
    exchange A s (blocks.map (chainedBlock cla ins p1 p2) ++ [⟨cla, ins, p1, p2, last, le⟩]) =
      (process A s ⟨cla, ins, p1, p2, (blocks.map Prod.fst).flatten ++ last, le⟩ >>= fun p =>
        .ok (p.1, blocks.map (fun _ => ⟨[], 0x9000⟩) ++ [p.2])) := by
  have key := exchange_held A s cla ins p1 p2 hcla he hb ho last le blocks []
    (by simp only [List.length_nil, bufSize]; omega)
  have he1 : ∀ d n, ¬ Eject ⟨cla, ins, p1, p2, d, n⟩ :=
    fun d n h => isChained_cla_ne_ff hcla h.1
  have h1 : process A s ⟨cla, ins, p1, p2, (blocks.map Prod.fst).flatten ++ last, le⟩ =
      process A (heldSt s ⟨cla, ins, p1, p2, [], 0⟩ [])
        ⟨cla, ins, p1, p2, (blocks.map Prod.fst).flatten ++ last, le⟩ :=
    process_fresh A s _ _ (he1 _ _) ho ⟨rfl, rfl, rfl, rfl⟩ (fun h => hfresh h)
  rw [h1]
  rw [List.nil_append] at key
  rw [← key]
  cases blocks with
  | nil =>
    simp only [List.map_nil, List.nil_append, exchange]
    rw [process_fresh A s ⟨cla, ins, p1, p2, last, le⟩ ⟨cla, ins, p1, p2, [], 0⟩ (he1 _ _) ho
      ⟨rfl, rfl, rfl, rfl⟩ hfresh]
  | cons b bs =>
    simp only [List.map_cons, List.cons_append, exchange]
    rw [process_fresh A s (chainedBlock cla ins p1 p2 b) ⟨cla, ins, p1, p2, [], 0⟩ (fun h => he h)
      ho ⟨(unchain_or cla).symm, rfl, rfl, rfl⟩
      (fun h => hfresh ⟨h.1, by rw [h.2.1]; exact unchain_or cla, h.2.2.1, h.2.2.2.1, h.2.2.2.2⟩)]

/-- Demonstration applets: each counts its commands and answers with the data it received followed
by its counter. -/
def demo : Applets Nat where
  handle _ x c := .ok (x + 1, ⟨(c.data ++ [UInt8.ofNat x]).take 1340, 0x9000⟩)
  powerOff _ _ := 0

/-- Demonstration state: OpenPGP selected. -/
def demoSt : St Nat := { St.init (fun _ => 0) true with current := some .openpgp }

/-- Non-vacuity of C06: three blocks of a PUT DATA to the OpenPGP applet. -/
example : ¬ ((0x00 : Byte) ||| 0x10 = 0xFF ∧ (0xDA : Byte) = 0xEE ∧ (0x01 : Byte) = 0xFF ∧
      (0x01 : Byte) = 0xEE) ∧
    demoSt.chain.buf.length = 1340 ∧ NotOffloaded demoSt 0xDA ∧
    ¬ Continues demoSt.chain ⟨0x00, 0xDA, 0x01, 0x01, [5], 0⟩ ∧
    isChained 0x00 = false ∧
    exchange demo demoSt [⟨0x10, 0xDA, 1, 1, [1, 2], 0⟩, ⟨0x10, 0xDA, 1, 1, [3, 4], 0⟩,
        ⟨0x00, 0xDA, 1, 1, [5], 256⟩] >>= (fun p => .ok p.2) =
      .ok [⟨[], 0x9000⟩, ⟨[], 0x9000⟩, ⟨[1, 2, 3, 4, 5, 0], 0x9000⟩] := by
  refine ⟨by decide, List.length_replicate, by intro h; simp [demoSt] at h,
    by decide, by decide, by decide +kernel⟩

/-! ## C07 -/

/-- Lemma: the bounds every reachable chaining state meets. -/
structure ChainOk (ch : Chain) : Prop where
  buf : ch.buf.length = bufSize
  lc : ch.lc ≤ bufSize
  rlen : ch.rlen ≤ bufSize
  sent : ch.sent ≤ ch.rlen

theorem apduInput_safe {ch : Chain} (h : ChainOk ch) (c : Capdu) :
    ∃ ch' r, apduInput ch c = .ok (ch', r) ∧ ChainOk ch' := by
  unfold apduInput
  simp only [cond_eq]
  by_cases hc : Continues ch c
  · simp only [hc, decide_true, if_true]
    by_cases hl : bufSize < ch.lc + c.lc
    · simp only [gt_iff_lt, hl, if_true, pure_eq_ok]
      exact ⟨_, _, rfl, h.1, h.2, h.3, h.4⟩
    · have : ch.lc + c.data.length ≤ ch.buf.length := by
        rw [h.1]; simp only [Capdu.lc] at hl; omega
      simp only [gt_iff_lt, hl, if_false, wrRange_ok this, ok_bind]
      simp only [Capdu.lc] at hl
      have hbuf : (List.take ch.lc ch.buf ++ c.data ++ List.drop (ch.lc + c.data.length) ch.buf).length
          = bufSize := by
        simp [h.1] at this ⊢; omega
      cases isChained c.cla
      · exact ⟨_, _, rfl, hbuf, by simp only [Capdu.lc]; omega, h.3, h.4⟩
      · exact ⟨_, _, rfl, hbuf, by simp only [Capdu.lc]; omega, h.3, h.4⟩
  · simp only [hc, decide_false, if_false, Bool.false_eq_true]
    by_cases hl : bufSize < 0 + c.lc
    · simp only [gt_iff_lt, hl, if_true, pure_eq_ok]
      exact ⟨_, _, rfl, h.1, Nat.zero_le _, h.3, h.4⟩
    · have : 0 + c.data.length ≤ ch.buf.length := by
        rw [h.1]; simp only [Capdu.lc] at hl; omega
      simp only [gt_iff_lt, hl, if_false, wrRange_ok this, ok_bind]
      simp only [Capdu.lc] at hl
      have hbuf : (List.take 0 ch.buf ++ c.data ++ List.drop (0 + c.data.length) ch.buf).length
          = bufSize := by
        simp [h.1] at this ⊢; omega
      cases isChained c.cla
      · exact ⟨_, _, rfl, hbuf, by simp only [Capdu.lc]; omega, h.3, h.4⟩
      · exact ⟨_, _, rfl, hbuf, by simp only [Capdu.lc]; omega, h.3, h.4⟩

theorem apduOutput_safe {ch : Chain} (h : ChainOk ch) (cap : Nat) :
    ∃ ch' r, apduOutput ch cap = .ok (ch', r) ∧ ChainOk ch' := by
  obtain ⟨h1, h2, h3, h4⟩ := h
  unfold apduOutput
  dsimp only
  have hle : (if ch.rlen - ch.sent > cap then cap else ch.rlen - ch.sent) ≤ ch.rlen - ch.sent := by
    split <;> omega
  generalize (if ch.rlen - ch.sent > cap then cap else ch.rlen - ch.sent) = n at *
  simp only [rdRange_ok (b := ch.buf) (off := ch.sent) (n := n) (by omega), ok_bind, pure_eq_ok]
  exact ⟨_, _, rfl, h1, h2, h3, by show ch.sent + n ≤ ch.rlen; omega⟩

theorem dispatch_safe {A : Applets σ} (hA : GoodApplets A) {s : St σ} (h : ChainOk s.chain)
    (hs : s.chain.sent = 0) (c : Capdu) :
    ∃ s' r, dispatch A s c = .ok (s', r) ∧ ChainOk s'.chain := by
  unfold dispatch
  cases hc : s.current with
  | none => exact ⟨_, _, rfl, h⟩
  | some a =>
    obtain ⟨x', r, hr, hlen⟩ := hA a (s.apps a) c
    simp only [hr, ok_bind]
    cases ha : a.chained with
    | false => exact ⟨_, _, rfl, h⟩
    | true =>
      have hlen := hlen ha
      have hb := h.1
      simp only [bufSize] at hb
      simp only [if_true]
      rw [wrRange_ok (by rw [hb]; omega)]
      simp only [ok_bind]
      have hok : ChainOk { s.chain with
          buf := List.take 0 s.chain.buf ++ r.data ++ List.drop (0 + r.data.length) s.chain.buf,
          rlen := r.data.length, rsw := r.sw } :=
        ⟨by simp [hb, bufSize]; omega, h.2, hlen, by rw [hs]; exact Nat.zero_le _⟩
      obtain ⟨ch', o, ho, hok'⟩ := apduOutput_safe hok c.le
      rw [ho]
      exact ⟨_, _, rfl, hok'⟩

theorem execLast_safe {A : Applets σ} (hA : GoodApplets A) {s : St σ} (h : ChainOk s.chain) :
    ∃ s' r, execLast A s = .ok (s', r) ∧ ChainOk s'.chain := by
  unfold execLast
  dsimp only
  split
  · obtain ⟨ch', o, ho, hok⟩ := apduOutput_safe (ch := { s.chain with le := min s.chain.le bufSize })
      ⟨h.1, h.2, h.3, h.4⟩ ({ s.chain with le := min s.chain.le bufSize }.capdu.le)
    rw [ho]
    exact ⟨_, _, rfl, hok⟩
  · have h0 : ChainOk { s.chain with le := min s.chain.le bufSize, sent := 0 } :=
      ⟨h.1, h.2, h.3, Nat.zero_le _⟩
    split
    · split
      · exact ⟨_, _, rfl, h0⟩
      · split
        · exact ⟨_, _, rfl, h0⟩
        · apply dispatch_safe hA
          · exact h0
          · rfl
    · exact dispatch_safe hA h0 rfl _

theorem process_safe {A : Applets σ} (hA : GoodApplets A) {s : St σ} (h : ChainOk s.chain)
    (c : Capdu) : ∃ s' r, process A s c = .ok (s', r) ∧ ChainOk s'.chain := by
  unfold process
  dsimp only
  generalize (if s.current == some .piv then pivOffload s.pivState c.ins else (s.pivState, false))
    = off
  split
  · exact ⟨_, _, rfl, h⟩
  · split
    · obtain ⟨x', r, hr, -⟩ := hA .piv (s.apps .piv) { c with le := min c.le bufSize }
      rw [hr]
      exact ⟨_, _, rfl, h⟩
    · obtain ⟨ch', r, hr, hok⟩ := apduInput_safe h c
      rw [hr]
      simp only [ok_bind]
      cases r with
      | notLast => exact ⟨_, _, rfl, hok⟩
      | overflow => exact ⟨_, _, rfl, hok⟩
      | last => exact execLast_safe hA hok

theorem exchange_safe {A : Applets σ} (hA : GoodApplets A) (cmds : List Capdu) :
    ∀ {s : St σ}, ChainOk s.chain →
    ∃ s' rs, exchange A s cmds = .ok (s', rs) ∧ ChainOk s'.chain ∧ rs.length = cmds.length := by
  induction cmds with
  | nil => intro s h; exact ⟨_, _, rfl, h, rfl⟩
  | cons c cs ih =>
    intro s h
    obtain ⟨s1, r, hr, h1⟩ := process_safe hA h c
    obtain ⟨s2, rs, hrs, h2, hl⟩ := ih h1
    refine ⟨s2, r :: rs, ?_, h2, by simp [hl]⟩
    simp [exchange, hr, hrs]

theorem chainOk_init : ChainOk Chain.init := ⟨by simp [Chain.init], by decide, by decide, by decide⟩

/-- **C07.**  From power-up, no sequence of commands (with arbitrary headers, chaining bits, data
and Le, to any applets that respect their response buffer) makes the dispatcher access memory
outside the 1340-byte chaining buffer; every command is answered. -/
theorem C07_never_overruns (A : Applets σ) (hA : GoodApplets A) (apps : Applet → σ) (ndef : Bool)
    (cmds : List Capdu) :
    ∃ s' rs, exchange A (St.init apps ndef) cmds = .ok (s', rs) ∧ rs.length = cmds.length ∧
      s'.chain.buf.length = 1340 ∧ s'.chain.lc ≤ 1340 := by
  obtain ⟨s', rs, h1, h2, h3⟩ := exchange_safe hA cmds (s := St.init apps ndef) chainOk_init
  exact ⟨s', rs, h1, h3, h2.1, h2.2⟩

/-- Non-vacuity: the demonstration applets satisfy the hypothesis. -/
example : GoodApplets demo := fun _ _ _ => ⟨_, _, rfl, fun _ => by simp; omega⟩

/-- **C07, refuted wish.**  A block refused because the chain would not fit is dropped, but the
chain stays open: the following final block executes the command with that block's bytes missing
from the middle, for every applet, header and block contents. -/
theorem C07_refused_block_is_dropped (A : Applets σ) (s : St σ) (cla ins p1 p2 : Byte)
    (hcla : isChained cla = false)
    (he : ¬ (cla ||| 0x10 = 0xFF ∧ ins = 0xEE ∧ p1 = 0xFF ∧ p2 = 0xEE))
    (hb : s.chain.buf.length = 1340) (ho : NotOffloaded s ins) (d1 d2 d3 : Bytes) (le : Nat)
    (hfresh : ¬ Continues s.chain ⟨cla, ins, p1, p2, d3, le⟩)
    (hover : 1340 < d1.length + d2.length) (hfit : d1.length + d3.length ≤ 1340) :
    exchange A s [chainedBlock cla ins p1 p2 (d1, 0), chainedBlock cla ins p1 p2 (d2, 0),
        ⟨cla, ins, p1, p2, d3, le⟩] =
      (process A s ⟨cla, ins, p1, p2, d1 ++ d3, le⟩ >>= fun p =>
        .ok (p.1, [⟨[], 0x9000⟩, ⟨[], 0x6F00⟩, p.2])) := by
  have he1 : ∀ d n, ¬ Eject ⟨cla, ins, p1, p2, d, n⟩ :=
    fun d n h => isChained_cla_ne_ff hcla h.1
  have hh : unchain (⟨cla, ins, p1, p2, [], 0⟩ : Capdu).cla =
      unchain (chainedBlock cla ins p1 p2 (d1, 0)).cla := (unchain_or cla).symm
  have hc : ∀ b, isChained (chainedBlock cla ins p1 p2 b).cla = true := fun b => isChained_or cla
  rw [exchange, process_fresh A s (chainedBlock cla ins p1 p2 (d1, 0)) ⟨cla, ins, p1, p2, [], 0⟩
      (fun h => he h) ho ⟨hh, rfl, rfl, rfl⟩
      (fun h => hfresh ⟨h.1, by rw [h.2.1]; exact unchain_or cla, h.2.2.1, h.2.2.2.1, h.2.2.2.2⟩),
    process_held A s (chainedBlock cla ins p1 p2 (d1, 0)) ⟨cla, ins, p1, p2, [], 0⟩ [] hb
      (fun h => he h) ho ⟨hh, rfl, rfl, rfl⟩
      (by simp only [chainedBlock, List.length_nil, bufSize]; omega)]
  simp only [hc, if_true, ok_bind, List.nil_append, exchange]
  rw [process_overflow A s (chainedBlock cla ins p1 p2 (d2, 0)) ⟨cla, ins, p1, p2, [], 0⟩
      (chainedBlock cla ins p1 p2 (d1, 0)).data (fun h => he h) ho ⟨hh, rfl, rfl, rfl⟩
      (by simpa only [chainedBlock, bufSize] using hover)]
  simp only [ok_bind]
  rw [process_held A s ⟨cla, ins, p1, p2, d3, le⟩ ⟨cla, ins, p1, p2, [], 0⟩
      (chainedBlock cla ins p1 p2 (d1, 0)).data hb (he1 _ _) ho ⟨rfl, rfl, rfl, rfl⟩
      (by simpa only [chainedBlock, bufSize] using hfit)]
  rw [process_fresh A s ⟨cla, ins, p1, p2, d1 ++ d3, le⟩ ⟨cla, ins, p1, p2, [], 0⟩ (he1 _ _) ho
      ⟨rfl, rfl, rfl, rfl⟩ (fun h => hfresh h),
    process_held A s ⟨cla, ins, p1, p2, d1 ++ d3, le⟩ ⟨cla, ins, p1, p2, [], 0⟩ [] hb (he1 _ _) ho
      ⟨rfl, rfl, rfl, rfl⟩
      (by simp only [List.length_nil, List.length_append, bufSize]; omega)]
  simp only [hcla, chainedBlock, List.nil_append, Bool.false_eq_true, if_false]
  cases execLast A _ <;> rfl

/-! ## C08 -/

theorem chunkSw_eq (rsw : UInt16) (rem : Nat) :
    (if 0 < rem then (if rem > 0xFF then 0x61FF else 0x6100 + UInt16.ofNat rem) else rsw) =
      chunkSw rsw rem := by
  unfold chunkSw
  by_cases h0 : rem = 0
  · simp [h0]
  · rw [if_pos (by omega), if_neg h0]
    by_cases h : rem > 0xFF
    · rw [if_pos h, Nat.min_eq_right (by omega)]; rfl
    · rw [if_neg h, Nat.min_eq_left (by omega)]
      apply UInt16.toNat_inj.1
      simp

/-- Lemma: `data`/`sw` is what GET RESPONSE will hand out. -/
structure Pending (s : St σ) (data : Bytes) (sw : UInt16) : Prop where
  buf : s.chain.buf.length = bufSize
  idle : s.chain.inChaining = false
  bound : s.chain.rlen ≤ bufSize
  sent : s.chain.sent ≤ s.chain.rlen
  data : (s.chain.buf.drop s.chain.sent).take (s.chain.rlen - s.chain.sent) = data
  sw : s.chain.rsw = sw
  piv : s.current = some .piv → s.pivState = .other

theorem apduOutput_eq {ch : Chain} (cap : Nat) (h1 : ch.buf.length = bufSize)
    (h2 : ch.rlen ≤ bufSize) (h3 : ch.sent ≤ ch.rlen) :
    apduOutput ch cap = .ok ({ ch with sent := ch.sent + min cap (ch.rlen - ch.sent) },
      ⟨((ch.buf.drop ch.sent).take (ch.rlen - ch.sent)).take cap,
        chunkSw ch.rsw (ch.rlen - ch.sent - cap)⟩) := by
  have e : (if ch.rlen - ch.sent > cap then cap else ch.rlen - ch.sent) =
      min cap (ch.rlen - ch.sent) := by split <;> omega
  unfold apduOutput
  dsimp only
  rw [e, rdRange_ok (by omega)]
  simp only [ok_bind, pure_eq_ok, Except.ok.injEq, Prod.mk.injEq, true_and, Rapdu.mk.injEq]
  constructor
  · rw [List.take_take]
  · rw [← chunkSw_eq]
    have e1 : ch.rlen - (ch.sent + min cap (ch.rlen - ch.sent)) = ch.rlen - ch.sent - cap := by omega
    rw [e1]
    by_cases h : ch.rlen - ch.sent - cap = 0
    · rw [if_neg (by omega : ¬ (ch.sent + min cap (ch.rlen - ch.sent) < ch.rlen)),
        if_neg (by omega : ¬ (0 < ch.rlen - ch.sent - cap))]
    · rw [if_pos (by omega : ch.sent + min cap (ch.rlen - ch.sent) < ch.rlen),
        if_pos (by omega : 0 < ch.rlen - ch.sent - cap)]

theorem pending_output {s : St σ} {data : Bytes} {sw : UInt16} (h : Pending s data sw) (n : Nat) :
    ∃ ch', apduOutput s.chain n = .ok (ch', ⟨data.take n, chunkSw sw (data.length - n)⟩) ∧
      Pending { s with chain := ch' } (data.drop n) sw := by
  have hd : data.length = s.chain.rlen - s.chain.sent := by
    have := h.bound; have := h.sent; have := h.buf
    rw [← h.data]; simp; omega
  refine ⟨{ s.chain with sent := s.chain.sent + min n (s.chain.rlen - s.chain.sent) }, ?_, h.buf,
    h.idle, h.bound, ?_, ?_, h.sw, h.piv⟩
  · rw [apduOutput_eq n h.buf h.bound h.sent, h.data, hd]
    simp only [h.sw]
  · have := h.sent
    show s.chain.sent + min n (s.chain.rlen - s.chain.sent) ≤ s.chain.rlen
    omega
  · show (s.chain.buf.drop (s.chain.sent + min n (s.chain.rlen - s.chain.sent))).take
      (s.chain.rlen - (s.chain.sent + min n (s.chain.rlen - s.chain.sent))) = data.drop n
    by_cases hn : n ≤ s.chain.rlen - s.chain.sent
    · rw [Nat.min_eq_left hn, ← h.data, List.drop_take, List.drop_drop]
      congr 1
      omega
    · rw [Nat.min_eq_right (by omega)]
      have e : s.chain.rlen - (s.chain.sent + (s.chain.rlen - s.chain.sent)) = 0 := by omega
      rw [e, List.take_zero, List.drop_eq_nil_of_le (by omega)]

theorem process_getResponse (A : Applets σ) {s : St σ} {data : Bytes} {sw : UInt16}
    (h : Pending s data sw) (n : Nat) :
    ∃ s', process A s (getResponse n) =
        .ok (s', ⟨data.take (min n 1340), chunkSw sw (data.length - min n 1340)⟩) ∧
      Pending s' (data.drop (min n 1340)) sw ∧ s'.apps = s.apps ∧ s'.current = s.current := by
  have ho : NotOffloaded s (getResponse n).ins := fun hc =>
    ⟨by simp [getResponse], by simp [getResponse], fun _ => h.piv hc⟩
  have he : ¬ Eject (getResponse n) := fun h => absurd h.1 (by simp [getResponse])
  have hf : ¬ Continues s.chain (getResponse n) := fun hc => by
    have := hc.1; rw [h.idle] at this; cases this
  rw [process_fresh A s (getResponse n) (getResponse n) he ho ⟨rfl, rfl, rfl, rfl⟩ hf,
    process_held A s (getResponse n) (getResponse n) [] h.buf he ho ⟨rfl, rfl, rfl, rfl⟩
      (by simp [getResponse])]
  have hu : isChained (getResponse n).cla = false := by show isChained 0 = false; decide
  have hu' : unchain (getResponse n).cla = 0 := by show unchain 0 = 0; decide
  simp only [hu, Bool.false_eq_true, if_false, hu']
  have hp : Pending { heldSt s (getResponse n) [] with
      chain := { holding s.chain 0 0xC0 0 0 [] with inChaining := false, le := min n 1340 } }
      data sw := by
    refine ⟨?_, rfl, h.bound, h.sent, ?_, h.sw, fun hc => ?_⟩
    · simpa [holding] using h.buf
    · simpa [holding] using h.data
    · have hc : s.current = some .piv := hc
      show pivAfter s = _
      simp [pivAfter, hc]
  obtain ⟨ch', ho', hp'⟩ := pending_output hp (min n 1340)
  refine ⟨{ heldSt s (getResponse n) [] with chain := ch' }, ?_, hp', rfl, rfl⟩
  unfold execLast
  simp only [Chain.capdu, getResponse, List.append_nil, holding, beq_self_eq_true, Bool.or_true,
    Bool.and_true, if_true, bufSize] at ho' ⊢
  simp only [heldSt, getResponse, holding, hu', List.append_nil] at ho' ⊢
  rw [ho']
  rfl

theorem exchange_getResponses (A : Applets σ) (caps : List Nat) : ∀ {s : St σ} {data : Bytes}
    {sw : UInt16}, Pending s data sw →
    ∃ s', exchange A s (caps.map getResponse) =
        .ok (s', answers data sw (caps.map (min · 1340))) ∧ s'.apps = s.apps := by
  induction caps with
  | nil => intro s data sw _; exact ⟨s, rfl, rfl⟩
  | cons n ns ih =>
    intro s data sw h
    obtain ⟨s1, h1, hp, ha, -⟩ := process_getResponse A h n
    obtain ⟨s2, h2, ha2⟩ := ih hp
    exact ⟨s2, by simp [exchange, h1, h2, answers], by rw [ha2, ha]⟩

/-- Lemma: a dispatch to an applet that answers through the chaining buffer. -/
theorem dispatch_pending (A : Applets σ) {s : St σ} {a : Applet} {c : Capdu} {x : σ} {r : Rapdu}
    (hcur : s.current = some a) (ha : a.chained = true)
    (hh : A.handle a (s.apps a) c = .ok (x, r)) (hlen : r.data.length ≤ 1340)
    (hb : s.chain.buf.length = bufSize) (hi : s.chain.inChaining = false)
    (hs : s.chain.sent = 0) (hp : s.current = some .piv → s.pivState = .other) :
    ∃ s', dispatch A s c = .ok (s', ⟨r.data.take c.le, chunkSw r.sw (r.data.length - c.le)⟩) ∧
      Pending s' (r.data.drop c.le) r.sw ∧ s'.apps = setApp s.apps a x ∧ s'.current = s.current := by
  unfold dispatch
  have hb' : s.chain.buf.length = 1340 := hb
  have hr : wrRange s.chain.buf 0 r.data = .ok (r.data ++ s.chain.buf.drop r.data.length) := by
    rw [wrRange_ok (by omega)]; simp
  have hpend : Pending { s with
      chain := { s.chain with buf := r.data ++ s.chain.buf.drop r.data.length,
                              rlen := r.data.length, rsw := r.sw },
      apps := setApp s.apps a x } r.data r.sw := by
    refine ⟨?_, hi, hlen, ?_, ?_, rfl, hp⟩
    · simp [hb']; simp only [bufSize]; omega
    · show s.chain.sent ≤ r.data.length
      omega
    · simp [hs]
  obtain ⟨ch', ho, hp'⟩ := pending_output hpend c.le
  refine ⟨_, ?_, hp', rfl, rfl⟩
  simp only at ho
  rw [hcur]
  simp only [hh, ok_bind, ha, if_true, hr]
  rw [ho]
  simp [hcur]

/-- Lemma: what an unchained command other than GET RESPONSE does. -/
theorem process_plain (A : Applets σ) (s : St σ) (c : Capdu) (hb : s.chain.buf.length = bufSize)
    (hu : isChained c.cla = false) (hg : ¬ IsGetResponse c) (he : ¬ Eject c)
    (ho : NotOffloaded s c.ins) (hf : ¬ Continues s.chain c) (hl : c.data.length ≤ bufSize) :
    ∃ s', s'.apps = s.apps ∧ s'.current = s.current ∧ s'.ndefEnabled = s.ndefEnabled ∧
      s'.chain.buf.length = bufSize ∧
      s'.chain.inChaining = false ∧ s'.chain.sent = 0 ∧
      s'.pivState = pivAfter s ∧
      process A s c =
        (if c.cla == 0x00 && c.ins == 0xA4 && c.p1 == 0x04 && c.p2 == 0x00 then
          match Applet.order.find? (·.matches c.data) with
          | none => .ok (s', ⟨[], SW_FILE_NOT_FOUND⟩)
          | some a =>
            if a == .ndef && !s'.ndefEnabled then .ok (s', ⟨[], SW_FILE_NOT_FOUND⟩)
            else dispatch A (switchTo A s' a) { c with le := min c.le bufSize }
        else dispatch A s' { c with le := min c.le bufSize }) := by
  rw [process_fresh A s c c he ho ⟨rfl, rfl, rfl, rfl⟩ hf,
    process_held A s c c [] hb he ho ⟨rfl, rfl, rfl, rfl⟩ (by simpa using hl)]
  simp only [hu, Bool.false_eq_true, if_false, List.nil_append]
  have hcap : ({ holding s.chain (unchain c.cla) c.ins c.p1 c.p2 c.data with
      inChaining := false, le := min c.le bufSize } : Chain).capdu =
      { c with le := min c.le bufSize } := by
    simp [Chain.capdu, holding, unchain_of_not c.cla hu]
  refine ⟨{ heldSt s c c.data with
      chain := { holding s.chain (unchain c.cla) c.ins c.p1 c.p2 c.data with
        inChaining := false, le := min c.le bufSize, sent := 0 } }, rfl, rfl, rfl, ?_, rfl, rfl,
        rfl, ?_⟩
  · simp [holding, hb]; omega
  · unfold execLast
    have hg' : ((c.cla == (0x80 : Byte) || c.cla == (0x00 : Byte)) && c.ins == (0xC0 : Byte)) = false := by
      rw [Bool.eq_false_iff]
      intro h
      simp only [Bool.and_eq_true, Bool.or_eq_true, beq_iff_eq] at h
      exact hg ⟨by rw [unchain_of_not c.cla hu]; exact h.1, h.2⟩
    simp only [hcap, hg', Bool.false_eq_true, if_false]
    rfl

/-- **C08.**  For every command to an applet that answers through response chaining (OpenPGP, PIV,
FIDO), every response `r` of up to 1340 bytes it computes, and every schedule of requested lengths:
the applet executes the command exactly once, and the answers to the command and to the following
GET RESPONSE commands are the consecutive pieces of `r` with the status words of `answers`. -/
theorem C08_response_chaining (A : Applets σ) (s : St σ) (c : Capdu) (a : Applet) (x : σ)
    (r : Rapdu) (caps : List Nat)
    (hb : s.chain.buf.length = 1340) (hcur : s.current = some a) (ha : a.chained = true)
    (hu : isChained c.cla = false) (hg : ¬ IsGetResponse c) (hsel : ¬ IsSelect c) (he : ¬ Eject c)
    (ho : NotOffloaded s c.ins) (hf : ¬ Continues s.chain c) (hl : c.data.length ≤ 1340)
    (hh : A.handle a (s.apps a) { c with le := min c.le 1340 } = .ok (x, r))
    (hr : r.data.length ≤ 1340) :
    ∃ s', exchange A s (c :: caps.map getResponse) =
        .ok (s', answers r.data r.sw ((c.le :: caps).map (min · 1340))) ∧
      s'.apps = setApp s.apps a x := by
  obtain ⟨s0, h1, h2, -, h3, h4, h5, h6, h7⟩ := process_plain A s c hb hu hg he ho hf hl
  have hs : (c.cla == 0x00 && c.ins == 0xA4 && c.p1 == 0x04 && c.p2 == 0x00) = false := by
    rw [Bool.eq_false_iff]
    intro h
    simp only [Bool.and_eq_true, beq_iff_eq] at h
    exact hsel ⟨by rw [unchain_of_not c.cla hu]; exact h.1.1.1, h.1.1.2, h.1.2, h.2⟩
  rw [hs] at h7
  simp only [Bool.false_eq_true, if_false] at h7
  obtain ⟨s1, h8, h9, h10, h11⟩ := dispatch_pending A (s := s0) (a := a)
    (c := { c with le := min c.le bufSize }) (x := x) (r := r) (by rw [h2, hcur]) ha
    (by rw [h1]; exact hh) hr h3 h4 h5
    (fun hc => by rw [h6]; rw [h2] at hc; simp [pivAfter, hc])
  obtain ⟨s2, h12, h13⟩ := exchange_getResponses A caps h9
  refine ⟨s2, ?_, by rw [h13, h10, h1]⟩
  rw [exchange, h7, h8]
  simp only [ok_bind]
  rw [h12]
  rfl

/-- **C08**, what `answers` means: the pieces concatenate to the response (its first `sum` bytes,
so all of it once enough was asked for), without loss or repetition. -/
theorem C08_answers_concat (data : Bytes) (sw : UInt16) (caps : List Nat) :
    ((answers data sw caps).map (·.data)).flatten = data.take caps.sum := by
  induction caps generalizing data with
  | nil => simp [answers]
  | cons n ns ih => simp [answers, ih, List.take_add]

/-- **C08**, status words: the i-th answer carries the command's status word iff nothing remains,
and 61xx with xx = min(remaining, 255) otherwise. -/
theorem C08_answers_sw (data : Bytes) (sw : UInt16) (caps : List Nat) (i : Nat)
    (hi : i < caps.length) :
    ∃ o, (answers data sw caps)[i]? = some o ∧
      o.sw = chunkSw sw (data.length - (caps.take (i + 1)).sum) := by
  induction caps generalizing data i with
  | nil => simp at hi
  | cons n ns ih =>
    cases i with
    | zero => exact ⟨_, rfl, by simp⟩
    | succ i =>
      obtain ⟨o, h1, h2⟩ := ih (data.drop n) i (by simpa using hi)
      refine ⟨o, by simpa [answers] using h1, ?_⟩
      rw [h2]
      simp [Nat.sub_sub]

/-- Non-vacuity of C08: a 7-byte response read in chunks of 2, 3 and 256. -/
example : exchange demo demoSt [⟨0, 0xCA, 0, 0, [1, 2, 3, 4, 5, 6], 2⟩, getResponse 3,
      getResponse 256] >>= (fun p => .ok p.2) =
    .ok [⟨[1, 2], 0x6105⟩, ⟨[3, 4, 5], 0x6102⟩, ⟨[6, 0], 0x9000⟩] := by
  decide +kernel

/-! ## C09 -/

theorem matches_eq (a : Applet) (d : Bytes) : a.matches d = a.aid.isPrefixOf d := by
  unfold Applet.matches
  rw [Bool.eq_iff_iff, List.isPrefixOf_iff_prefix]
  simp only [Bool.and_eq_true, decide_eq_true_eq, beq_iff_eq]
  constructor
  · rintro ⟨-, h⟩
    rw [← h]
    exact List.take_prefix _ _
  · intro h
    exact ⟨h.length_le, (List.prefix_iff_eq_take.1 h).symm⟩

theorem find_eq_selected (d : Bytes) : Applet.order.find? (·.matches d) = selected d := by
  unfold selected Applet.order
  congr 1
  funext a
  exact matches_eq a d

/-- **C09, refuted.**  Select OpenPGP, read part of a response, select OATH (which does not answer
through the chaining buffer), then GET RESPONSE: the bytes handed out under the OATH applet come
from the OpenPGP response (all but the first seven, overwritten by the OATH AID). -/
theorem C09_stale_response :
    exchange demo demoSt [⟨0, 0xCA, 0, 0, [1, 2, 3, 4, 5, 6, 7, 8, 9, 10], 2⟩,
      ⟨0, 0xA4, 4, 0, [0xA0, 0x00, 0x00, 0x05, 0x27, 0x21, 0x01], 256⟩, getResponse 256]
        >>= (fun p => .ok (p.1.current, p.2.map (·.data))) =
    .ok (some .oath, [[1, 2], [0xA0, 0x00, 0x00, 0x05, 0x27, 0x21, 0x01, 0],
      [0xA0, 0x00, 0x00, 0x05, 0x27, 0x21, 0x01, 8, 9, 10, 0]]) := by
  decide +kernel

/-- **C09, partial.**  After a SELECT of an applet that answers through response chaining,
GET RESPONSE returns only bytes of that SELECT's own response, whatever was pending before.
(Missing: SELECT of OATH, admin or NDEF, for which the claim is false.) -/
theorem C09_after_select_partial (A : Applets σ) (s : St σ) (c : Capdu) (a : Applet) (x : σ)
    (r : Rapdu) (caps : List Nat)
    (hb : s.chain.buf.length = 1340) (ha : a.chained = true)
    (hu : isChained c.cla = false) (hsel : IsSelect c) (hf : ¬ Continues s.chain c)
    (hl : c.data.length ≤ 1340) (hfind : selected c.data = some a)
    (hh : A.handle a (if s.current = some a then s.apps a else powerOffAll A s.apps a)
      { c with le := min c.le 1340 } = .ok (x, r))
    (hr : r.data.length ≤ 1340) :
    ∃ s', exchange A s (c :: caps.map getResponse) =
        .ok (s', answers r.data r.sw ((c.le :: caps).map (min · 1340))) := by
  obtain ⟨e1, e2, e3, e4⟩ := hsel
  rw [unchain_of_not c.cla hu] at e1
  have hg : ¬ IsGetResponse c := fun h => by rw [h.2] at e2; exact absurd e2 (by decide)
  have he : ¬ Eject c := fun h => isChained_cla_ne_ff hu h.1
  have ho : NotOffloaded s c.ins := fun _ => by rw [e2]; exact ⟨by decide, by decide, fun h => absurd h (by decide)⟩
  obtain ⟨s0, h1, h2, h2', h3, h4, h5, h6, h7⟩ := process_plain A s c hb hu hg he ho hf hl
  have hnd : (a == Applet.ndef) = false := by cases a <;> simp_all [Applet.chained]
  simp only [e1, e2, e3, e4, beq_self_eq_true, Bool.and_true, if_true, find_eq_selected, hfind, hnd,
    Bool.false_and,
    Bool.false_eq_true, if_false] at h7
  obtain ⟨s1, h8, h9, -, -⟩ := dispatch_pending A (s := switchTo A s0 a)
    (a := a) (c := { c with le := min c.le bufSize }) (x := x) (r := r) rfl ha
    (by
      rw [← hh]
      simp only [switchTo, h1, h2, eq_comm (a := some a)]
      by_cases hc : s.current = some a <;> simp [hc, bufSize]) hr h3 h4 h5
    (by
      intro hp
      have : a = .piv := by simpa [switchTo] using hp
      simp [switchTo, this])
  obtain ⟨s2, h12, h13⟩ := exchange_getResponses A caps h9
  refine ⟨s2, ?_⟩
  rw [exchange, h7]
  have e5 : ({ c with le := min c.le bufSize } : Capdu) =
      ⟨0, 0xA4, 4, 0, c.data, min c.le bufSize⟩ := by simp [e1, e2, e3, e4]
  rw [e5] at h8
  rw [h8]
  simp only [ok_bind]
  rw [h12]
  rfl

/-- Non-vacuity of C09's partial theorem: SELECT PIV while OpenPGP is current. -/
example : IsSelect ⟨0, 0xA4, 4, 0, [0xA0, 0, 0, 3, 8], 256⟩ ∧
    ¬ Continues demoSt.chain ⟨0, 0xA4, 4, 0, [0xA0, 0, 0, 3, 8], 256⟩ ∧
    selected [0xA0, 0, 0, 3, 8] = some .piv ∧ Applet.piv.chained = true := by
  refine ⟨by decide, by decide, by decide, by decide⟩

/-! ## C10 -/

theorem apduInput_header {ch ch' : Chain} {c : Capdu} {r : InRes}
    (h : apduInput ch c = .ok (ch', r)) :
    ch'.cla = unchain c.cla ∧ ch'.ins = c.ins ∧ ch'.p1 = c.p1 ∧ ch'.p2 = c.p2 := by
  unfold apduInput at h
  simp only [cond_eq] at h
  by_cases hc : Continues ch c
  · simp only [hc, decide_true, if_true] at h
    obtain ⟨-, e1, e2, e3, e4⟩ := hc
    split at h
    · simp at h; obtain ⟨rfl, -⟩ := h; exact ⟨e1, e2, e3, e4⟩
    · simp only [wrRange] at h
      split at h
      · simp only [ok_bind] at h
        split at h
        · simp at h; obtain ⟨rfl, -⟩ := h; exact ⟨e1, e2, e3, e4⟩
        · simp at h; obtain ⟨rfl, -⟩ := h; exact ⟨e1, e2, e3, e4⟩
      · simp at h
  · simp only [hc, decide_false, if_false, Bool.false_eq_true] at h
    split at h
    · simp at h; obtain ⟨rfl, -⟩ := h; exact ⟨rfl, rfl, rfl, rfl⟩
    · simp only [wrRange] at h
      split at h
      · simp only [ok_bind] at h
        split at h
        · simp at h; obtain ⟨rfl, -⟩ := h; exact ⟨rfl, rfl, rfl, rfl⟩
        · simp at h; obtain ⟨rfl, -⟩ := h; exact ⟨rfl, rfl, rfl, rfl⟩
      · simp at h

theorem dispatch_isolated {A : Applets σ} {s s' : St σ} {c : Capdu} {r : Rapdu}
    (h : dispatch A s c = .ok (s', r)) :
    s'.current = s.current ∧ ∀ b, s.current ≠ some b → s'.apps b = s.apps b := by
  unfold dispatch at h
  cases hc : s.current with
  | none => simp [hc] at h; obtain ⟨rfl, -⟩ := h; exact ⟨hc, fun b _ => rfl⟩
  | some a =>
    rw [hc] at h
    cases hh : A.handle a (s.apps a) c with
    | error e => simp [hh] at h
    | ok p =>
      simp only [hh, ok_bind] at h
      have hs : ∀ b, some a ≠ some b → setApp s.apps a p.1 b = s.apps b := fun b hb => by
        unfold setApp; rw [if_neg (by rintro rfl; exact hb rfl)]
      split at h
      · cases hw : wrRange s.chain.buf 0 p.2.data with
        | error e => simp [hw] at h
        | ok buf =>
          simp only [hw, ok_bind] at h
          cases ho : apduOutput { s.chain with buf := buf, rlen := p.2.data.length, rsw := p.2.sw }
              c.le with
          | error e => simp [ho] at h
          | ok q =>
            simp [ho] at h
            obtain ⟨rfl, -⟩ := h
            exact ⟨rfl, hs⟩
      · simp at h
        obtain ⟨rfl, -⟩ := h
        exact ⟨rfl, hs⟩

/-- **C10.**  A command that is not a SELECT by AID is handled only by the current applet: it leaves
the selection and the state of every other applet unchanged, in every state (including pending
chains and GET RESPONSE). -/
theorem C10_only_current_applet (A : Applets σ) (s s' : St σ) (c : Capdu) (r : Rapdu)
    (hsel : ¬ IsSelect c) (h : process A s c = .ok (s', r)) :
    s'.current = s.current ∧ ∀ b, s.current ≠ some b → s'.apps b = s.apps b := by
  unfold process at h
  dsimp only at h
  split at h
  · simp at h; obtain ⟨rfl, -⟩ := h; exact ⟨rfl, fun _ _ => rfl⟩
  · by_cases hp : s.current = some .piv
    · simp only [hp, beq_self_eq_true, if_true] at h
      generalize pivOffload s.pivState c.ins = off at h
      split at h
      · cases hh : A.handle .piv (s.apps .piv) { c with le := min c.le bufSize } with
        | error e => simp [hh] at h
        | ok p =>
          simp [hh] at h
          obtain ⟨rfl, -⟩ := h
          refine ⟨hp.symm, fun b hb => ?_⟩
          simp only [setApp]
          rw [if_neg]
          rintro rfl
          exact hb hp
      · exact aux h (s := { s with current := some .piv, pivState := off.1 }) rfl hp.symm
    · have hp' : (s.current == some Applet.piv) = false := by simpa using hp
      simp only [hp', Bool.false_eq_true, if_false] at h
      exact aux h (s := { s with pivState := s.pivState }) rfl rfl
where
  aux {s0 s : St σ} (h : (apduInput s0.chain c >>= fun p =>
        match p.2 with
        | .notLast => pure ({ s with chain := p.1 }, ⟨[], SW_NO_ERROR⟩)
        | .overflow => pure ({ s with chain := p.1 }, ⟨[], SW_CHECKING_ERROR⟩)
        | .last => execLast A { s with chain := p.1 }) = .ok (s', r))
      (ha : s.apps = s0.apps) (hcur : s.current = s0.current) :
      s'.current = s0.current ∧ ∀ b, s0.current ≠ some b → s'.apps b = s0.apps b := by
    rw [← hcur, ← ha]
    cases hi : apduInput s0.chain c with
    | error e => simp [hi] at h
    | ok p =>
      obtain ⟨ch, res⟩ := p
      obtain ⟨e1, e2, e3, e4⟩ := apduInput_header hi
      rw [hi] at h
      simp only [ok_bind] at h
      cases res with
      | notLast => simp at h; obtain ⟨rfl, -⟩ := h; exact ⟨rfl, fun _ _ => rfl⟩
      | overflow => simp at h; obtain ⟨rfl, -⟩ := h; exact ⟨rfl, fun _ _ => rfl⟩
      | last =>
        simp only at h
        unfold execLast at h
        dsimp only at h
        split at h
        · generalize apduOutput _ _ = o at h
          cases o with
          | error e => simp at h
          | ok q => simp at h; obtain ⟨rfl, -⟩ := h; exact ⟨rfl, fun _ _ => rfl⟩
        · split at h
          · next hs =>
            exfalso
            simp only [Chain.capdu, Bool.and_eq_true, beq_iff_eq, e1, e2, e3, e4] at hs
            exact hsel ⟨hs.1.1.1, hs.1.1.2, hs.1.2, hs.2⟩
          · obtain ⟨h1, h2⟩ := dispatch_isolated h
            exact ⟨h1, h2⟩

/-- **C10**, over histories: as long as no SELECT by AID is sent, only the applet selected at the
beginning can change. -/
theorem C10_history_isolated (A : Applets σ) (cmds : List Capdu) :
    ∀ (s s' : St σ) (rs : List Rapdu), (∀ c ∈ cmds, ¬ IsSelect c) →
    exchange A s cmds = .ok (s', rs) →
    s'.current = s.current ∧ ∀ b, s.current ≠ some b → s'.apps b = s.apps b := by
  induction cmds with
  | nil => intro s s' rs _ h; simp [exchange] at h; obtain ⟨rfl, -⟩ := h; exact ⟨rfl, fun _ _ => rfl⟩
  | cons c cs ih =>
    intro s s' rs hns h
    cases hp : process A s c with
    | error e => simp [exchange, hp] at h
    | ok p =>
      cases he : exchange A p.1 cs with
      | error e => simp [exchange, hp, he] at h
      | ok q =>
        simp [exchange, hp, he] at h
        obtain ⟨rfl, -⟩ := h
        obtain ⟨h1, h2⟩ := C10_only_current_applet A s p.1 c p.2 (hns c (by simp)) hp
        obtain ⟨h3, h4⟩ := ih p.1 q.1 q.2 (fun c hc => hns c (by simp [hc])) he
        exact ⟨h3.trans h1, fun b hb => (h4 b (by rw [h1]; exact hb)).trans (h2 b hb)⟩

/-- **C10.**  What SELECT by AID does, from every state: an unknown AID (or a disabled NDEF applet)
is answered 6A82 and changes neither the selection nor any applet; otherwise the named applet
becomes current, and - if it was not already - every applet but FIDO is powered off before the new
applet sees the command. -/
theorem C10_select (A : Applets σ) (s s' : St σ) (c : Capdu) (r : Rapdu)
    (hb : s.chain.buf.length = 1340) (hu : isChained c.cla = false) (hsel : IsSelect c)
    (hf : ¬ Continues s.chain c) (hl : c.data.length ≤ 1340)
    (h : process A s c = .ok (s', r)) :
    match selected c.data with
    | none => r = ⟨[], 0x6A82⟩ ∧ s'.current = s.current ∧ s'.apps = s.apps
    | some a =>
      if a = .ndef ∧ s.ndefEnabled = false then
        r = ⟨[], 0x6A82⟩ ∧ s'.current = s.current ∧ s'.apps = s.apps
      else
        let before : Applet → σ := fun b =>
          if s.current = some a ∨ b = .fido then s.apps b else A.powerOff b (s.apps b)
        s'.current = some a ∧ (∀ b, b ≠ a → s'.apps b = before b) ∧
          ∃ r0, A.handle a (before a) { c with le := min c.le 1340 } = .ok (s'.apps a, r0) := by
  obtain ⟨e1, e2, e3, e4⟩ := hsel
  rw [unchain_of_not c.cla hu] at e1
  have hg : ¬ IsGetResponse c := fun h => by rw [h.2] at e2; exact absurd e2 (by decide)
  have he : ¬ Eject c := fun h => isChained_cla_ne_ff hu h.1
  have ho : NotOffloaded s c.ins := fun _ => by
    rw [e2]; exact ⟨by decide, by decide, fun h => absurd h (by decide)⟩
  obtain ⟨s0, h1, h2, h2', h3, h4, h5, h6, h7⟩ := process_plain A s c hb hu hg he ho hf hl
  rw [h] at h7
  simp only [e1, e2, e3, e4, beq_self_eq_true, Bool.and_true, if_true, find_eq_selected] at h7
  cases hs : selected c.data with
  | none =>
    rw [hs] at h7
    simp at h7
    obtain ⟨rfl, rfl⟩ := h7
    exact ⟨rfl, h2, h1⟩
  | some a =>
    rw [hs] at h7
    simp only at h7 ⊢
    by_cases hnd : a = .ndef ∧ s.ndefEnabled = false
    · rw [if_pos hnd]
      rw [if_pos (by simp [hnd.1, h2', hnd.2])] at h7
      simp at h7
      obtain ⟨rfl, rfl⟩ := h7
      exact ⟨rfl, h2, h1⟩
    · rw [if_neg hnd]
      rw [if_neg (by
        simp only [Bool.and_eq_true, beq_iff_eq, Bool.not_eq_true', h2']
        exact hnd)] at h7
      have e5 : (⟨0, 0xA4, 4, 0, c.data, min c.le bufSize⟩ : Capdu) =
        { c with le := min c.le 1340 } := by simp [e1, e2, e3, e4, bufSize]
      rw [e5] at h7
      have hbef : ∀ b, (switchTo A s0 a).apps b =
          if s.current = some a ∨ b = .fido then s.apps b else A.powerOff b (s.apps b) := by
        intro b
        simp only [switchTo, h1, h2]
        by_cases hc : s.current = some a
        · simp [hc]
        · have hc' : ¬ some a = s.current := fun h => hc h.symm
          simp only [hc', if_false, hc, false_or]
          cases b <;> simp [powerOffAll]
      obtain ⟨h8, h9⟩ := dispatch_isolated h7.symm
      refine ⟨h8, fun b hb => ?_, ?_⟩
      · rw [h9 b (by simp only [switchTo, ne_eq, Option.some.injEq]; exact fun h => hb h.symm), hbef]
      · rw [← hbef a]
        have h7 := h7.symm
        unfold dispatch at h7
        have hcur : (switchTo A s0 a).current = some a := rfl
        rw [hcur] at h7
        cases hh : A.handle a ((switchTo A s0 a).apps a) { c with le := min c.le 1340 } with
        | error e => simp [hh] at h7
        | ok p =>
          simp only [hh, ok_bind] at h7
          refine ⟨p.2, ?_⟩
          split at h7
          · cases hw : wrRange (switchTo A s0 a).chain.buf 0 p.2.data with
            | error e => simp [hw] at h7
            | ok buf =>
              simp only [hw, ok_bind] at h7
              generalize apduOutput _ _ = o at h7
              cases o with
              | error e => simp at h7
              | ok q => simp at h7; obtain ⟨rfl, -⟩ := h7; simp [setApp]
          · simp at h7; obtain ⟨rfl, -⟩ := h7; simp [setApp]

/-- **C10.**  Before any applet is selected, every ordinary command is refused with 6A82 and
changes no applet. -/
theorem C10_before_select (A : Applets σ) (s : St σ) (c : Capdu)
    (hcur : s.current = none) (hb : s.chain.buf.length = 1340) (hu : isChained c.cla = false)
    (hg : ¬ IsGetResponse c) (hsel : ¬ IsSelect c) (hf : ¬ Continues s.chain c)
    (hl : c.data.length ≤ 1340) :
    ∃ s', process A s c = .ok (s', ⟨[], 0x6A82⟩) ∧ s'.apps = s.apps ∧ s'.current = none := by
  have he : ¬ Eject c := fun h => isChained_cla_ne_ff hu h.1
  have ho : NotOffloaded s c.ins := fun h => by rw [hcur] at h; cases h
  obtain ⟨s0, h1, h2, -, -, -, -, -, h7⟩ := process_plain A s c hb hu hg he ho hf hl
  have hs : (c.cla == 0x00 && c.ins == 0xA4 && c.p1 == 0x04 && c.p2 == 0x00) = false := by
    rw [Bool.eq_false_iff]
    intro h
    simp only [Bool.and_eq_true, beq_iff_eq] at h
    exact hsel ⟨by rw [unchain_of_not c.cla hu]; exact h.1.1.1, h.1.1.2, h.1.2, h.2⟩
  rw [hs] at h7
  refine ⟨s0, ?_, h1, h2.trans hcur⟩
  rw [h7]
  simp [dispatch, h2, hcur, SW_FILE_NOT_FOUND]

/-- Non-vacuity of C10: power-up, a refused command, SELECT OATH, a command to it, SELECT OpenPGP
(which powers OATH off), a refused SELECT. -/
example : exchange demo (St.init (fun _ => 7) true) [⟨0, 0x01, 0, 0, [1], 256⟩,
      ⟨0, 0xA4, 4, 0, [0xA0, 0x00, 0x00, 0x05, 0x27, 0x21, 0x01], 256⟩, ⟨0, 0x01, 0, 0, [9], 256⟩,
      ⟨0, 0xA4, 4, 0, [0xD2, 0x76, 0x00, 0x01, 0x24, 0x01, 0xFF], 256⟩,
      ⟨0, 0xA4, 4, 0, [0xD2, 0x76], 256⟩]
        >>= (fun p => .ok (p.1.current, p.1.apps .oath, p.1.apps .openpgp, p.1.apps .fido,
          p.2.map (·.sw))) =
    .ok (some .openpgp, 0, 1, 7, [0x6A82, 0x9000, 0x9000, 0x9000, 0x6A82]) := by
  decide +kernel

/-! ## C11 -/

/-- **C11.**  In every interleaving of the atomic steps of acquire and release calls by any number
of interfaces, two interfaces never hold the shared buffer at the same time, and the holder is the
recorded owner. -/
theorem C11_mutual_exclusion (es : List Ev) (hid : ∀ e ∈ es, e.who ≠ ownerNone) :
    let s := Own.run ⟨ownerNone, fun _ => false⟩ es
    (∀ o, s.holds o = true → s.cur = o ∧ o ≠ ownerNone) ∧
    ∀ o₁ o₂, s.holds o₁ = true → s.holds o₂ = true → o₁ = o₂ := by
  have inv : ∀ (es : List Ev) (s : Own), (∀ e ∈ es, e.who ≠ ownerNone) →
      (∀ o, s.holds o = true → s.cur = o ∧ o ≠ ownerNone) →
      (∀ o, (s.run es).holds o = true → (s.run es).cur = o ∧ o ≠ ownerNone) := by
    intro es
    induction es with
    | nil => intro s _ h; exact h
    | cons e es ih =>
      intro s hid h
      have he := hid e (by simp)
      apply ih (s.step e) (fun e he => hid e (by simp [he]))
      intro o ho
      cases e with
      | acqCas o' =>
        have := h o ho
        simp only [Own.step, acquireCas, cas] at ho ⊢
        rw [if_neg (by rw [this.1]; exact this.2)]
        exact this
      | acqRead o' =>
        by_cases hc : acquireRead s.cur o' = true
        · simp only [Own.step, hc, if_true, Bool.or_eq_true, beq_iff_eq] at ho ⊢
          rcases ho with rfl | ho
          · exact ⟨by simpa [acquireRead] using hc, he⟩
          · exact h o ho
        · simp only [Own.step, hc, if_false, Bool.false_eq_true] at ho ⊢
          exact h o ho
      | relCas o' =>
        simp only [Own.step, Bool.and_eq_true, bne_iff_ne] at ho ⊢
        have := h o ho.2
        simp only [releaseCas, cas]
        rw [if_neg (by rw [this.1]; exact ho.1)]
        exact this
  have h := inv es ⟨ownerNone, fun _ => false⟩ hid (by simp)
  exact ⟨h, fun o₁ o₂ h1 h2 => (h o₁ h1).1.symm.trans (h o₂ h2).1⟩

/-- **C11.**  An uninterrupted acquire succeeds exactly if the buffer is free or already the
caller's; a release by anyone but the owner changes nothing, and one by the owner frees it. -/
theorem C11_acquire_release (cur o : Nat) :
    (acquireRead (acquireCas cur o) o = true ↔ cur = ownerNone ∨ cur = o) ∧
    (cur ≠ o → releaseCas cur o = cur) ∧ releaseCas o o = ownerNone ∧
    (cur ≠ ownerNone → acquireCas cur o = cur) := by
  refine ⟨?_, ?_, ?_, ?_⟩
  · simp only [acquireRead, acquireCas, cas, beq_iff_eq]
    split <;> simp_all
  · intro h; simp [releaseCas, cas, h]
  · simp [releaseCas, cas]
  · intro h; simp [acquireCas, cas, h]

/-- Non-vacuity of C11: CCID (2) acquires, WebUSB (3) fails, CCID releases, WebUSB acquires. -/
example : (Own.run ⟨ownerNone, fun _ => false⟩
      [.acqCas 2, .acqCas 3, .acqRead 2, .acqRead 3]).holds 2 = true ∧
    (Own.run ⟨ownerNone, fun _ => false⟩
      [.acqCas 2, .acqCas 3, .acqRead 2, .acqRead 3]).holds 3 = false := by decide
example : (Own.run ⟨ownerNone, fun _ => false⟩
      [.acqCas 2, .acqRead 2, .relCas 3, .relCas 2, .acqCas 3, .acqRead 3]).holds 2 = false ∧
    (Own.run ⟨ownerNone, fun _ => false⟩
      [.acqCas 2, .acqRead 2, .relCas 3, .relCas 2, .acqCas 3, .acqRead 3]).holds 3 = true := by
  decide

end Verif.Apdu
