import Verif.Spec.FmSpi
import Mathlib.Tactic.FinCases
/-
C122: the driver of the NFC chip FM11NC.
-/
namespace Verif.FmSpi

theorem hdr0 : ∀ r < 32, (UInt8.ofNat r).toNat / 32 = 0 ∧ (UInt8.ofNat r).toNat % 32 = r := by decide +kernel
theorem hdr1 : ∀ r < 32, (UInt8.ofNat r ||| 0x20).toNat / 32 = 1 ∧ (UInt8.ofNat r ||| 0x20).toNat % 32 = r := by
  decide +kernel
theorem hdr2 : ∀ r < 32, (0x40 ||| UInt8.ofNat r).toNat / 32 = 2 ∧ (0x40 ||| UInt8.ofNat r).toNat % 32 = r := by
  decide +kernel
theorem hdr3 : ∀ r < 32, (0x60 ||| UInt8.ofNat r).toNat / 32 = 3 ∧ (0x60 ||| UInt8.ofNat r).toNat % 32 = r := by
  decide +kernel

theorem low_byte (a : Nat) : (UInt8.ofNat (a % 256)).toNat = a % 256 := by
  rw [UInt8.toNat_ofNat']
  omega

/-- A frame that is not the permission. -/
theorem notPerm {h : Byte} {l : Bytes} (hh : h.toNat / 32 ≠ 6) : ((h :: l) == ([0xCE, 0x55] : Bytes)) = false := by
  rw [beq_eq_false_iff_ne]
  intro e
  have := (List.cons.inj e).1
  subst this
  exact hh (by decide)

theorem readRegs_eq (m : Mem) (a n : Nat) (h : a < 32) :
    readRegs chip a n (Chip.idle m) = (getAt m.regs a n, Chip.idle m) := by
  obtain ⟨h1, h2⟩ := hdr1 a h
  simp only [readRegs, chip, Chip.idle, Chip.low, Chip.tx, Chip.rx, Chip.high, Mem.frame, Option.isSome, List.nil_append,
    Bool.false_eq_true, if_false, h1, h2, if_true, notPerm (h := UInt8.ofNat a ||| 0x20) (l := []) (by omega)]
  simp

theorem writeRegs_eq (m : Mem) (a : Nat) (l : Bytes) (h : a < 32) :
    writeRegs chip a l (Chip.idle m) = Chip.idle { m with regs := putAt m.regs a l } := by
  obtain ⟨h1, h2⟩ := hdr0 a h
  simp only [writeRegs, chip, Chip.idle, Chip.low, Chip.tx, Chip.high, Mem.frame, Option.isSome, List.nil_append,
    Bool.false_eq_true, if_false, List.cons_append, h1, h2, if_true, notPerm (h := UInt8.ofNat a) (l := l) (by omega)]

theorem readEeprom_eq (m : Mem) (a n : Nat) (h : a < 8192) :
    readEeprom chip a n (Chip.idle m) = (getAt m.eep a n, Chip.idle m) := by
  obtain ⟨h1, h2⟩ := hdr3 (a / 256) (by omega)
  have e : a / 256 * 256 + a % 256 = a := by omega
  simp only [readEeprom, chip, Chip.idle, Chip.low, Chip.tx, Chip.rx, Chip.high, Mem.frame, Option.isSome, List.nil_append,
    Bool.false_eq_true, if_false, h1, h2, if_true, low_byte, e,
    notPerm (h := 0x60 ||| UInt8.ofNat (a / 256)) (l := [UInt8.ofNat (a % 256)]) (by omega)]
  simp

theorem writeEeprom_eq (m : Mem) (a : Nat) (l : Bytes) (h : a < 8192) :
    writeEeprom chip a l (Chip.idle m) = Chip.idle { m with eep := putAt m.eep a l } := by
  obtain ⟨h1, h2⟩ := hdr2 (a / 256) (by omega)
  have e : a / 256 * 256 + a % 256 = a := by omega
  have p : (([0xCE, 0x55] : Bytes) == [0xCE, 0x55]) = true := by decide
  have q : (0xCE : Byte).toNat / 32 = 6 := by decide
  simp only [writeEeprom, chip, Chip.idle, Chip.low, Chip.tx, Chip.high, Mem.frame, Option.isSome, List.nil_append,
    Bool.false_eq_true, if_false, List.cons_append, p, q, h1, h2, if_true, low_byte, e,
    notPerm (h := 0x40 ||| UInt8.ofNat (a / 256)) (l := UInt8.ofNat (a % 256) :: l) (by omega)]
  simp

theorem readFifo_eq (m : Mem) (n : Nat) :
    readFifo chip n (Chip.idle m) = (m.got.take n, Chip.idle { m with got := m.got.drop n }) := by
  have q : (0xA0 : Byte).toNat / 32 = 5 := by decide
  simp only [readFifo, chip, Chip.idle, Chip.low, Chip.tx, Chip.rx, Chip.high, Mem.frame, Option.isSome, List.nil_append,
    Bool.false_eq_true, if_false, q, notPerm (h := 0xA0) (l := []) (by decide)]
  simp

theorem writeFifo_eq (m : Mem) (l : Bytes) :
    writeFifo chip l (Chip.idle m) = Chip.idle { m with send := m.send ++ l } := by
  have q : (0x80 : Byte).toNat / 32 = 4 := by decide
  simp only [writeFifo, chip, Chip.idle, Chip.low, Chip.tx, Chip.high, Mem.frame, Option.isSome, List.nil_append,
    Bool.false_eq_true, if_false, List.cons_append, q, notPerm (h := 0x80) (l := l) (by decide)]
  simp

theorem drive_eq (m : Mem) (c : Call) (h : c.Ok) :
    c.drive chip (Chip.idle m) = ((m.call c).1, Chip.idle (m.call c).2) := by
  cases c with
  | readRegs a n => exact readRegs_eq m a n h
  | writeRegs a l => exact congrArg (Prod.mk []) (writeRegs_eq m a l h)
  | readEeprom a n => exact readEeprom_eq m a n h
  | writeEeprom a l => exact congrArg (Prod.mk []) (writeEeprom_eq m a l h)
  | readFifo n => exact readFifo_eq m n
  | writeFifo l => exact congrArg (Prod.mk []) (writeFifo_eq m l)

/-- **C122.** In every history of calls with addresses that fit into the command, each call returns and changes exactly what it
should: it neither touches other registers, nor other memory, nor the other queue; the EEPROM is opened for exactly one
write; the wires are used as allowed, and the chip is not left selected (`Chip.idle`). -/
theorem C122_refines (m : Mem) (l : List Call) (h : ∀ c ∈ l, c.Ok) :
    driveAll chip (Chip.idle m) l = ((m.calls l).1, Chip.idle (m.calls l).2) := by
  induction l generalizing m with
  | nil => rfl
  | cons c l ih =>
    unfold driveAll Mem.calls
    rw [drive_eq m c (h c List.mem_cons_self)]
    simp only
    rw [ih _ fun c hc => h c (List.mem_cons_of_mem _ hc)]

theorem getAt_putAt (m : Nat → Byte) (a : Nat) (l : Bytes) : getAt (putAt m a l) a l.length = l := by
  apply List.ext_getElem
  · simp [getAt]
  · intro i h1 h2
    simp [getAt, putAt, h2]

theorem store_eq (m : Mem) (a : Nat) (v : Bytes) (n : Nat) (h : a < 8192) :
    store chip a v (n + 1) (Chip.idle m) = some (Chip.idle { m with eep := putAt m.eep a v }) := by
  unfold store
  rw [writeEeprom_eq m a v h]
  simp only
  rw [readEeprom_eq _ a _ h]
  simp only
  rw [if_pos (getAt_putAt _ _ _)]

/-- **C122**, the start: it ends after one round each, with the answers of the card to a reader (ATQA, SAK, ATS) in their
places, and nothing else is changed. -/
theorem C122_init (m : Mem) (n : Nat) :
    init chip (n + 1) (Chip.idle m) =
      some (Chip.idle { m with eep := configured m.eep }) := by
  unfold init
  rw [store_eq m _ _ n (by omega)]
  simp only
  rw [store_eq _ _ _ n (by omega)]
  rfl

/-- **C122**, the start with any chip, also one that loses writes: if it ends then what was read back last is what was to
be written. -/
theorem C122_store_any {σ : Type} (b : Spi σ) (a : Nat) (v : Bytes) (n : Nat) (s t : σ)
    (h : store b a v n s = some t) : ∃ u, readEeprom b a v.length (writeEeprom b a v u) = (v, t) := by
  induction n generalizing s with
  | zero => cases h
  | succ n ih =>
    unfold store at h
    simp only at h
    split at h
    · rename_i e
      refine ⟨s, ?_⟩
      rw [← Option.some.inj h]
      exact Prod.ext e rfl
    · exact ih _ h

/-- The hypothesis on addresses is needed: they are not checked, and a write to register 128 is a write to the queue.
No call of the code has such an address (`/repo/include/nfc.h:15-28`). -/
theorem C122_address_needed (m : Mem) (l : Bytes) :
    writeRegs chip 128 l (Chip.idle m) = Chip.idle { m with send := m.send ++ l } := by
  have q : (UInt8.ofNat 128).toNat / 32 = 4 := by decide
  simp only [writeRegs, chip, Chip.idle, Chip.low, Chip.tx, Chip.high, Mem.frame, Option.isSome, List.nil_append,
    Bool.false_eq_true, if_false, List.cons_append, q, notPerm (h := UInt8.ofNat 128) (l := l) (by decide)]
  simp

/-- A history with all kinds of calls. -/
example : (∀ c ∈ [Call.writeEeprom 0x3A5 [1, 2], .readEeprom 0x3A4 4, .writeRegs 7 [9], .readRegs 6 3, .readFifo 2, .writeFifo [5]],
    c.Ok) ∧ (driveAll chip (Chip.idle ⟨fun _ => 0, fun _ => 255, [10, 11, 12], []⟩)
      [.writeEeprom 0x3A5 [1, 2], .readEeprom 0x3A4 4, .writeRegs 7 [9], .readRegs 6 3, .readFifo 2, .writeFifo [5]]).1 =
      [[], [255, 1, 2, 255], [], [0, 9, 0], [10, 11], []] := by
  constructor
  · intro c hc
    fin_cases hc <;> simp [Call.Ok]
  · decide +kernel

end Verif.FmSpi
