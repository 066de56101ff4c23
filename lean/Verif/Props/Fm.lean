import Verif.Spec.Fm
import Mathlib.Data.List.Basic
/-
C118: the driver of the NFC chip.
-/
namespace Verif.Fm
open Verif.Spec.Fm

variable {σ : Type} {d : Dev σ}

theorem readLoop_eq (n : Nat) : ∀ (b : Bus σ) (a : Nat), b.mode = .drives a →
    readLoop (pins d) (n + 1) b =
      ((readN d a (n + 1) b.dev).1, { b with dev := (readN d a (n + 1) b.dev).2, mode := .idle }) := by
  induction n with
  | zero =>
    rintro ⟨s, m, ad, l, r⟩ a rfl
    simp [readLoop, pins, readN, Mode.free]
  | succ n ih =>
    rintro ⟨s, m, ad, l, r⟩ a rfl
    unfold readLoop
    simp only [pins, Nat.succ_ne_zero, if_false]
    have := ih ⟨(d.read a s).2, .drives (d.next a), ad, l, r⟩ (d.next a) rfl
    simp only [pins] at this
    rw [this]
    rfl

theorem addr_value (a : UInt16) :
    (UInt8.ofNat (a.toNat / 256)).toNat * 256 + (UInt8.ofNat (a.toNat % 256)).toNat = a.toNat := by
  have := a.toNat_lt
  simp only [UInt8.toNat_ofNat']
  omega

/-- Bytes behind the address, with the refusals of the chip. -/
theorem writes_data (xs : Bytes) : ∀ (b : Bus σ) (a : Nat), b.mode = .takes a → ∃ k, k ≤ xs.length ∧
    (writes (pins d) xs b).2.dev = writeN d a (xs.take k) b.dev ∧
    (writes (pins d) xs b).2.legal = b.legal ∧ (writes (pins d) xs b).2.mode.free = true ∧
    (writes (pins d) xs b).2.mode ≠ .idle ∧
    ((writes (pins d) xs b).1 = true ↔ k = xs.length) ∧
    ((∀ r ∈ b.refuse, r = false) → (writes (pins d) xs b).1 = true ∧ ∀ r ∈ (writes (pins d) xs b).2.refuse, r = false) := by
  induction xs with
  | nil =>
    rintro ⟨s, m, ad, l, r⟩ a rfl
    exact ⟨0, by simp, by simp [writes, writeN], rfl, rfl, by simp [writes], by simp [writes], fun h => ⟨rfl, h⟩⟩
  | cons x xs ih =>
    rintro ⟨s, m, ad, l, r⟩ a rfl
    have step : (∃ r', r = true :: r') ∨
        (pins d).write x ⟨s, .takes a, ad, l, r⟩ = (true, ⟨d.write a x s, .takes (d.next a), ad, l, r.tail⟩) := by
      rcases r with _ | ⟨_ | _, r⟩
      · right; rfl
      · right; rfl
      · left; exact ⟨r, rfl⟩
    rcases step with ⟨r', rfl⟩ | e
    · refine ⟨0, by simp, ?_⟩
      have e : writes (pins d) (x :: xs) ⟨s, .takes a, ad, l, true :: r'⟩ = (false, ⟨s, .done, ad, l && true && true, r'⟩) := rfl
      rw [e]
      refine ⟨by simp [writeN], by simp, rfl, by simp, by simp, ?_⟩
      intro h
      exact absurd (h true List.mem_cons_self) (by simp)
    · obtain ⟨k, hk, h1, h2, h3, h4, h5, h6⟩ := ih ⟨d.write a x s, .takes (d.next a), ad, l, r.tail⟩ (d.next a) rfl
      have e' : writes (pins d) (x :: xs) ⟨s, .takes a, ad, l, r⟩ =
          writes (pins d) xs ⟨d.write a x s, .takes (d.next a), ad, l, r.tail⟩ := by
        rw [writes, e]
      rw [e']
      refine ⟨k + 1, by simp; omega, by simpa [writeN] using h1, h2, h3, h4, by rw [h5]; simp, ?_⟩
      intro h
      exact h6 fun q hq => h q (List.mem_of_mem_tail hq)

/-- The address, with the refusals of the chip. -/
theorem writes_addr (b : Bus σ) (h : b.Ready) (a : UInt16) :
    (∃ r, writes (pins d) ([0xAE] ++ addrBytes a) ((pins d).start b) = (true, ⟨b.dev, .takes a.toNat, a.toNat, true, r⟩) ∧
      ∀ q ∈ r, q ∈ b.refuse) ∨
    (∃ b', writes (pins d) ([0xAE] ++ addrBytes a) ((pins d).start b) = (false, b') ∧ b'.Ready ∧ b'.mode ≠ .idle ∧ b'.dev = b.dev ∧
      true ∈ b.refuse) := by
  obtain ⟨s, m, ad, l, r⟩ := b
  obtain ⟨hl, hf⟩ := h
  simp only at hl hf
  subst hl
  have hv : a.toNat / 256 % 256 * 256 + a.toNat % 256 = a.toNat := by have := a.toNat_lt; omega
  rcases r with _ | ⟨_ | _, r⟩
  · left; refine ⟨[], ?_, by simp⟩
    simp [writes, pins, Bus.take, addrBytes, hf, hv]
  · rcases r with _ | ⟨_ | _, r⟩
    · left; refine ⟨[], ?_, by simp⟩
      simp [writes, pins, Bus.take, addrBytes, hf, hv]
    · rcases r with _ | ⟨_ | _, r⟩
      · left; refine ⟨[], ?_, by simp⟩
        simp [writes, pins, Bus.take, addrBytes, hf, hv]
      · left; refine ⟨r, ?_, by intro q hq; simp [hq]⟩
        simp [writes, pins, Bus.take, addrBytes, hf, hv]
      · right; refine ⟨⟨s, .done, ad, true, r⟩, ?_, ⟨rfl, rfl⟩, by simp, rfl, by simp⟩
        simp [writes, pins, Bus.take, addrBytes, Mode.free]; exact hf
    · right; refine ⟨⟨s, .done, ad, true, r⟩, ?_, ⟨rfl, rfl⟩, by simp, rfl, by simp⟩
      simp [writes, pins, Bus.take, addrBytes, Mode.free]; exact hf
  · right; refine ⟨⟨s, .done, ad, true, r⟩, ?_, ⟨rfl, rfl⟩, by simp, rfl, by simp⟩
    simp [writes, pins, Bus.take, addrBytes, Mode.free]; exact hf

/-- **C118.** Reading at least one byte, whatever the chip refuses: either the bytes are those of the chip at this
address, in order, and the bus is free; or the chip refused a byte, nothing was read or changed, and the next
transaction is legal. -/
theorem C118_read_partial (b : Bus σ) (h : b.Ready) (a : UInt16) (len : UInt8) (hl : len ≠ 0) :
    (∃ b', read (pins d) a len b = (true, (readN d a.toNat len.toNat b.dev).1, b') ∧ b'.Idle ∧
      b'.dev = (readN d a.toNat len.toNat b.dev).2) ∨
    (∃ b', read (pins d) a len b = (false, [], b') ∧ b'.Ready ∧ b'.dev = b.dev ∧ true ∈ b.refuse) := by
  obtain ⟨n, hn⟩ : ∃ n, len.toNat = n + 1 :=
    ⟨len.toNat - 1, by have : len.toNat ≠ 0 := fun e => hl (UInt8.toNat_inj.mp e); omega⟩
  rcases writes_addr (d := d) b h a with ⟨r, e, hr⟩ | ⟨b', e, h1, _, h2, h3⟩
  · have hr' : (∃ r', r = true :: r') ∨ writes (pins d) [0xAF] ((pins d).start ⟨b.dev, .takes a.toNat, a.toNat, true, r⟩) =
        (true, ⟨b.dev, .drives a.toNat, a.toNat, true, r.tail⟩) := by
      rcases r with _ | ⟨_ | _, r⟩
      · right; simp [writes, pins, Bus.take, Mode.free]
      · right; simp [writes, pins, Bus.take, Mode.free]
      · left; exact ⟨r, rfl⟩
    rcases hr' with ⟨r', rfl⟩ | e2
    · right
      refine ⟨⟨b.dev, .done, a.toNat, true, r'⟩, ?_, ⟨rfl, rfl⟩, rfl, hr _ List.mem_cons_self⟩
      unfold read
      rw [e]
      simp [writes, pins, Bus.take, Mode.free]
    · left
      refine ⟨⟨(readN d a.toNat len.toNat b.dev).2, .idle, a.toNat, true, r.tail⟩, ?_, ⟨rfl, rfl⟩, rfl⟩
      unfold read
      rw [e]
      simp only
      rw [e2]
      simp only
      rw [hn, readLoop_eq n _ a.toNat rfl]
  · right
    refine ⟨b', ?_, h1, h2, h3⟩
    unfold read
    rw [e]

/-- **C118.** Writing, whatever the chip refuses: either exactly these bytes are written at this address, in order, and
the bus is free; or the chip refused a byte, the bytes before it are written, and the next transaction is legal. -/
theorem C118_write (b : Bus σ) (h : b.Ready) (a : UInt16) (xs : Bytes) :
    (∃ b', write (pins d) a xs b = (true, b') ∧ b'.Idle ∧ b'.dev = writeN d a.toNat xs b.dev) ∨
    (∃ b' k, write (pins d) a xs b = (false, b') ∧ b'.Ready ∧ (k < xs.length ∨ k = 0) ∧
      b'.dev = writeN d a.toNat (xs.take k) b.dev ∧ true ∈ b.refuse) := by
  rcases writes_addr (d := d) b h a with ⟨r, e, hr⟩ | ⟨b', e, h1, _, h2, h3⟩
  · obtain ⟨k, hk, h1, h2, h3, h4, h5, h6⟩ := writes_data (d := d) xs ⟨b.dev, .takes a.toNat, a.toNat, true, r⟩ a.toNat rfl
    rcases hw : writes (pins d) xs ⟨b.dev, .takes a.toNat, a.toNat, true, r⟩ with ⟨ok, b2⟩
    rw [hw] at h1 h2 h3 h4 h5 h6
    simp only at h1 h2 h3 h4 h5 h6
    cases ok with
    | true =>
      left
      refine ⟨(pins d).stop b2, ?_, ⟨?_, rfl⟩, ?_⟩
      · unfold write; rw [e]; simp only; rw [hw]
      · simp [pins, h2, h3, h4]
      · have : k = xs.length := h5.mp rfl
        subst this
        rw [List.take_length] at h1
        exact h1
    | false =>
      right
      refine ⟨b2, k, ?_, ⟨h2, h3⟩, ?_, h1, ?_⟩
      · unfold write; rw [e]; simp only; rw [hw]
      · left
        have : k ≠ xs.length := fun e => by simpa using h5.mpr e
        omega
      · by_contra hc
        have := (h6 fun q hq => by
          have := hr q hq
          cases q
          · rfl
          · exact absurd this hc).1
        cases this
  · right
    refine ⟨b', 0, ?_, h1, Or.inr rfl, by simp [writeN, h2], h3⟩
    unfold write
    rw [e]

/-- A transaction. -/
inductive Job where
  | read (a : UInt16) (len : UInt8)
  | write (a : UInt16) (xs : Bytes)

/-- Its effect on the bus. -/
def Job.run (d : Dev σ) (b : Bus σ) : Job → Bus σ
  | .read a len => (Fm.read (pins d) a len b).2.2
  | .write a xs => (Fm.write (pins d) a xs b).2

/-- **C118.** Nothing illegal happens on the bus in any history of transactions that read at least one byte, whatever the
chip refuses. -/
theorem C118_legal_partial (jobs : List Job) (hj : ∀ a, Job.read a 0 ∉ jobs) : ∀ b : Bus σ, b.Ready →
    (jobs.foldl (Job.run d) b).Ready := by
  induction jobs with
  | nil => exact fun b h => h
  | cons j jobs ih =>
    intro b h
    apply ih (fun a hm => hj a (List.mem_cons_of_mem _ hm))
    have idle : ∀ b' : Bus σ, b'.Idle → b'.Ready := fun b' ⟨h1, h2⟩ => ⟨h1, by rw [h2]; rfl⟩
    cases j with
    | read a len =>
      have hl : len ≠ 0 := by rintro rfl; exact hj a List.mem_cons_self
      rcases C118_read_partial (d := d) b h a len hl with ⟨b', e, h1, _⟩ | ⟨b', e, h1, _⟩
      · simp only [Job.run, e]; exact idle _ h1
      · simp only [Job.run, e]; exact h1
    | write a xs =>
      rcases C118_write (d := d) b h a xs with ⟨b', e, h1, _⟩ | ⟨b', k, e, h1, _⟩
      · simp only [Job.run, e]; exact idle _ h1
      · simp only [Job.run, e]; exact h1

/-- **C118, refuted for reading nothing.** Reading no bytes, as happens when the chip reports an empty queue, is reported
as success but leaves the chip holding the data line: the next transaction begins illegally, whatever it is. -/
theorem C118_refuted_empty (b : Bus σ) (h : b.Ready) (hr : b.refuse = []) (a : UInt16) :
    ∃ b', read (pins d) a 0 b = (true, [], b') ∧ b'.legal = true ∧ b'.mode = .drives a.toNat ∧
      ((pins d).start b').legal = false := by
  obtain ⟨s, m, ad, l, r⟩ := b
  obtain ⟨hl, hf⟩ := h
  simp only at hl hf hr
  subst hl hr
  have hv : a.toNat / 256 % 256 * 256 + a.toNat % 256 = a.toNat := by have := a.toNat_lt; omega
  refine ⟨⟨s, .drives a.toNat, a.toNat, true, []⟩, ?_, rfl, rfl, rfl⟩
  simp [read, readLoop, writes, pins, Bus.take, addrBytes, hv, Mode.free]; exact hf

/-- **C118, refuted for refusals.** After a refused byte the bus is not released: there is no stop. -/
theorem C118_refuted_stop (b : Bus σ) (h : b.Ready) (r : List Bool) (hr : b.refuse = true :: r) (a : UInt16) (xs : Bytes) :
    (write (pins d) a xs b).1 = false ∧ ¬ (write (pins d) a xs b).2.Idle := by
  obtain ⟨s, m, ad, l, r'⟩ := b
  obtain ⟨hl, hf⟩ := h
  simp only at hl hf hr
  subst hl hr
  simp [write, writes, pins, Bus.take, Bus.Idle]

/-! ### The checksum -/

/-- The round backwards. -/
def unround (c : Nat) : Nat := if c ≥ 128 then ((c ^^^ 0xb8) * 2 + 1) % 256 else c * 2

theorem unround_round : ∀ c < 256, unround (crcRound c) = c := by decide +kernel

theorem round_lt (c : Nat) : crcRound c < 256 := Nat.mod_lt _ (by decide)

theorem round_inj {c c' : Nat} (h : c < 256) (h' : c' < 256) (e : crcRound c = crcRound c') : c = c' := by
  rw [← unround_round c h, ← unround_round c' h', e]

theorem xor_lt {c : Nat} (h : c < 256) (x : Byte) : c ^^^ x.toNat < 256 :=
  Nat.xor_lt_two_pow (n := 8) h x.toNat_lt

theorem byte_lt (c : Nat) (x : Byte) : crcByte c x < 256 := round_lt _

theorem byte_inj {c c' : Nat} {x x' : Byte} (h : c < 256) (h' : c' < 256) (e : crcByte c x = crcByte c' x') :
    c ^^^ x.toNat = c' ^^^ x'.toNat := by
  unfold crcByte at e
  have e1 := round_inj (round_lt _) (round_lt _) e
  have e2 := round_inj (round_lt _) (round_lt _) e1
  have e3 := round_inj (round_lt _) (round_lt _) e2
  have e4 := round_inj (round_lt _) (round_lt _) e3
  have e5 := round_inj (round_lt _) (round_lt _) e4
  have e6 := round_inj (round_lt _) (round_lt _) e5
  have e7 := round_inj (round_lt _) (round_lt _) e6
  exact round_inj (xor_lt h x) (xor_lt h' x') e7

theorem fold_inj (ds : Bytes) : ∀ {c c' : Nat}, c < 256 → c' < 256 → ds.foldl crcByte c = ds.foldl crcByte c' → c = c' := by
  induction ds with
  | nil => exact fun _ _ e => e
  | cons x ds ih =>
    intro c c' h h' e
    have := byte_inj h h' (ih (byte_lt c x) (byte_lt c' x) e)
    have h2 : (c ^^^ x.toNat) ^^^ x.toNat = (c' ^^^ x.toNat) ^^^ x.toNat := by rw [this]
    simpa [Nat.xor_assoc] using h2

theorem fold_lt (ds : Bytes) : ∀ {c : Nat}, c < 256 → ds.foldl crcByte c < 256 := by
  induction ds with
  | nil => exact fun h => h
  | cons x ds ih => exact fun _ => ih (byte_lt _ x)

/-- **C118.** The checksum of the configuration tells apart any two contents that differ in one byte, whatever their
length. -/
theorem C118_checksum (pre post : Bytes) (x x' : Byte) (h : x ≠ x') :
    crc8 (pre ++ x :: post) ≠ crc8 (pre ++ x' :: post) := by
  intro e
  unfold crc8 at e
  rw [List.foldl_append, List.foldl_append, List.foldl_cons, List.foldl_cons] at e
  have hl := fold_lt pre (c := 0xff) (by decide)
  have e1 := byte_inj hl hl (fold_inj post (byte_lt _ _) (byte_lt _ _) e)
  generalize pre.foldl crcByte 0xff = c at e1
  have h2 : c ^^^ (c ^^^ x.toNat) = c ^^^ (c ^^^ x'.toNat) := by rw [e1]
  rw [← Nat.xor_assoc, ← Nat.xor_assoc, Nat.xor_self, Nat.zero_xor, Nat.zero_xor] at h2
  exact h (UInt8.toNat_inj.mp h2)

/-! ### Concrete cases -/

namespace Ex

/-- A memory of sixteen bytes that counts addresses up. -/
def mem : Dev Bytes := ⟨fun a s => (s.getD (a % 16) 0, s), fun a x s => s.set (a % 16) x, fun a => a + 1⟩

def bus (r : List Bool) : Bus Bytes := ⟨[0, 1, 2, 3, 4, 5, 6, 7, 8, 9, 10, 11, 12, 13, 14, 15], .idle, 0, true, r⟩

example : (bus []).Ready := ⟨rfl, rfl⟩
example : (read (pins mem) 4 3 (bus [])).1 = true ∧ (read (pins mem) 4 3 (bus [])).2.1 = [4, 5, 6] := by decide +kernel
example : (write (pins mem) 2 [7, 7] (bus [])).2.dev = [0, 1, 7, 7, 4, 5, 6, 7, 8, 9, 10, 11, 12, 13, 14, 15] := by
  decide +kernel
/-- The chip refuses the second byte of the data. -/
example : (write (pins mem) 2 [7, 7] (bus [false, false, false, false, true])).1 = false ∧
    (write (pins mem) 2 [7, 7] (bus [false, false, false, false, true])).2.dev =
      [0, 1, 7, 3, 4, 5, 6, 7, 8, 9, 10, 11, 12, 13, 14, 15] := by decide +kernel
example : crc8 [0x44, 0x00, 0x04, 0x20] ≠ crc8 [0x44, 0x00, 0x05, 0x20] := by decide +kernel

end Ex

end Verif.Fm
