import Verif.Spec.FmNt
import Verif.Props.Fm
/-
C123: the configuration of the NFC chip FM11NT at the start.
-/
namespace Verif.FmNt
open Verif.Fm Verif.Spec.Fm

theorem writeN_mem (xs : Bytes) : ∀ (a : Nat) (m : Nat → Byte) (i : Nat),
    writeN memory a xs m i = if a ≤ i ∧ i < a + xs.length then xs.getD (i - a) 0 else m i := by
  induction xs with
  | nil => intro a m i; rw [if_neg (by simp)]; rfl
  | cons x xs ih =>
    intro a m i
    show writeN memory (a + 1) xs (memory.write a x m) i = _
    rw [ih]
    by_cases h1 : i = a
    · subst h1
      rw [if_neg (by omega), if_pos (by simp)]
      simp [memory]
    · by_cases h2 : a + 1 ≤ i ∧ i < a + 1 + xs.length
      · rw [if_pos h2, if_pos (by simp; omega)]
        obtain ⟨k, rfl⟩ : ∃ k, i = a + 1 + k := ⟨i - (a + 1), by omega⟩
        rw [show a + 1 + k - a = k + 1 by omega, show a + 1 + k - (a + 1) = k by omega]
        rfl
      · rw [if_neg h2, if_neg (by simp; omega)]
        simp [memory, h1]

theorem readN_mem (n : Nat) : ∀ (a : Nat) (m : Nat → Byte), readN memory a n m = (bytesAt m a n, m) := by
  induction n with
  | zero => intro a m; rfl
  | succ n ih =>
    intro a m
    show (m a :: (readN memory (a + 1) n m).1, (readN memory (a + 1) n m).2) = _
    rw [ih]
    simp only [bytesAt, List.range_succ_eq_map, List.map_cons, List.map_map, Nat.add_zero]
    congr 2
    apply List.map_congr_left
    intro i _
    show m (a + 1 + i) = m (a + (i + 1))
    rw [Nat.add_right_comm, Nat.add_assoc]

variable {σ : Type} {d : Dev σ}

theorem take_nil (b : Bus σ) (x : Byte) (h : b.refuse = []) : (b.take d x).2.refuse = [] := by
  obtain ⟨s, m, ad, l, r⟩ := b
  simp only at h
  subst h
  cases m <;> simp [Bus.take]
  split
  · rfl
  · split <;> rfl

theorem writes_nil (xs : Bytes) : ∀ b : Bus σ, b.refuse = [] → (writes (pins d) xs b).2.refuse = [] := by
  induction xs with
  | nil => exact fun b h => h
  | cons x xs ih =>
    intro b h
    have ht : ((pins d).write x b).2.refuse = [] := take_nil (d := d) b x h
    unfold writes
    rcases hb : (pins d).write x b with ⟨ok, b'⟩
    rw [hb] at ht
    cases ok with
    | true => exact ih b' ht
    | false => exact ht

theorem write_nil (b : Bus σ) (a : UInt16) (xs : Bytes) (h : b.refuse = []) : (write (pins d) a xs b).2.refuse = [] := by
  have h1 := writes_nil (d := d) ([0xAE] ++ addrBytes a) ((pins d).start b) h
  unfold write
  rcases hw : writes (pins d) ([0xAE] ++ addrBytes a) ((pins d).start b) with ⟨ok, b'⟩
  rw [hw] at h1
  cases ok with
  | false => exact h1
  | true =>
    have h2 := writes_nil (d := d) xs b' h1
    simp only
    rcases hv : writes (pins d) xs b' with ⟨ok, b''⟩
    rw [hv] at h2
    cases ok <;> exact h2

/-- A write to a chip that refuses nothing. -/
theorem write_ok (b : Bus σ) (h : b.Ready) (hn : b.refuse = []) (a : UInt16) (xs : Bytes) :
    (write (pins d) a xs b).2.Ready ∧ (write (pins d) a xs b).2.refuse = [] ∧
      (write (pins d) a xs b).2.dev = writeN d a.toNat xs b.dev := by
  rcases C118_write (d := d) b h a xs with ⟨b', e, hi, hd⟩ | ⟨b', k, _, _, _, _, hr⟩
  · have := write_nil (d := d) b a xs hn
    rw [e] at this ⊢
    exact ⟨⟨hi.1, by rw [hi.2]; rfl⟩, this, hd⟩
  · rw [hn] at hr
    cases hr

/-- A write to any chip. -/
theorem write_any (b : Bus (Nat → Byte)) (h : b.Ready) (a : UInt16) (xs : Bytes) :
    (write (pins memory) a xs b).2.Ready ∧
      ∀ i, ¬(a.toNat ≤ i ∧ i < a.toNat + xs.length) → (write (pins memory) a xs b).2.dev i = b.dev i := by
  rcases C118_write (d := memory) b h a xs with ⟨b', e, hi, hd⟩ | ⟨b', k, e, hi, _, hd, _⟩
  · rw [e]
    refine ⟨⟨hi.1, by rw [hi.2]; rfl⟩, fun i hn => ?_⟩
    rw [hd, writeN_mem, if_neg hn]
  · rw [e]
    refine ⟨hi, fun i hn => ?_⟩
    rw [hd, writeN_mem, if_neg (by rw [List.length_take]; omega)]

theorem readLoop_nil (n : Nat) : ∀ b : Bus σ, b.refuse = [] → (readLoop (pins d) n b).2.refuse = [] := by
  induction n with
  | zero => exact fun b h => h
  | succ n ih =>
    rintro ⟨s, m, ad, l, r⟩ h
    simp only at h
    subst h
    unfold readLoop
    rcases hr : (pins d).read ⟨s, m, ad, l, []⟩ with ⟨x, b'⟩
    have hb : b'.refuse = [] := by
      have : ((pins d).read ⟨s, m, ad, l, []⟩).2.refuse = [] := by cases m <;> rfl
      rw [hr] at this
      exact this
    simp only
    by_cases hn : n = 0
    · rw [if_pos hn]
      obtain ⟨s', m', ad', l', r'⟩ := b'
      simp only at hb
      subst hb
      cases m' <;> rfl
    · rw [if_neg hn]
      apply ih
      obtain ⟨s', m', ad', l', r'⟩ := b'
      simp only at hb
      subst hb
      cases m' <;> rfl

theorem read_nil (b : Bus σ) (a : UInt16) (n : UInt8) (h : b.refuse = []) : (Fm.read (pins d) a n b).2.2.refuse = [] := by
  have h1 := writes_nil (d := d) ([0xAE] ++ addrBytes a) ((pins d).start b) h
  unfold Fm.read
  rcases hw : writes (pins d) ([0xAE] ++ addrBytes a) ((pins d).start b) with ⟨ok, b'⟩
  rw [hw] at h1
  cases ok with
  | false => exact h1
  | true =>
    have h2 := writes_nil (d := d) [0xAF] ((pins d).start b') h1
    simp only
    rcases hv : writes (pins d) [0xAF] ((pins d).start b') with ⟨ok, b''⟩
    rw [hv] at h2
    cases ok with
    | false => exact h2
    | true => exact readLoop_nil _ _ h2

/-- **C123**, whatever the chip refuses: nothing but the configuration is changed, in particular not the serial number,
and the bus is used legally. -/
theorem C123_others (b : Bus (Nat → Byte)) (h : b.Ready) (stack : Bytes) :
    (init (pins memory) stack b).Ready ∧ ∀ i, ¬isConfig i → (init (pins memory) stack b).dev i = b.dev i := by
  unfold init
  simp only
  obtain ⟨h1, e1⟩ := write_any b h 0x390 userCfg
  generalize (write (pins memory) 0x390 userCfg b).2 = b1 at *
  obtain ⟨h2, e2⟩ := write_any b1 h1 0x3B0 ats
  generalize (write (pins memory) 0x3B0 ats b1).2 = b2 at *
  obtain ⟨h3, e3⟩ := write_any b2 h2 0x3BC atqaSak
  generalize (write (pins memory) 0x3BC atqaSak b2).2 = b3 at *
  have h4 : (Fm.read (pins memory) 0 9 b3).2.2.Ready ∧ (Fm.read (pins memory) 0 9 b3).2.2.dev = b3.dev := by
    rcases C118_read_partial (d := memory) b3 h3 0 9 (by decide) with ⟨b', e, hi, hd⟩ | ⟨b', e, hi, hd, _⟩
    · rw [e]
      exact ⟨⟨hi.1, by rw [hi.2]; rfl⟩, by rw [hd, readN_mem]⟩
    · rw [e]
      exact ⟨hi, hd⟩
  obtain ⟨h5, e5⟩ := write_any (Fm.read (pins memory) 0 9 b3).2.2 h4.1 0x3BB
    [UInt8.ofNat (crc8 (((Fm.read (pins memory) 0 9 b3).2.1 ++ stack.drop (Fm.read (pins memory) 0 9 b3).2.1.length).take 9 ++ atqaSak))]
  refine ⟨h5, fun i hi => ?_⟩
  unfold isConfig at hi
  rw [e5 i (by simp; omega), h4.2, e3 i (by simp [atqaSak]; omega), e2 i (by simp [ats]; omega), e1 i (by simp [userCfg]; omega)]

/-- **C123**, for a chip that refuses no byte: the configuration is complete and the checksum is right, whatever was in
the memory and on the stack. -/
theorem C123_configured_partial (b : Bus (Nat → Byte)) (h : b.Ready) (hn : b.refuse = []) (stack : Bytes) :
    Configured (init (pins memory) stack b).dev := by
  unfold init
  simp only
  obtain ⟨h1, n1, e1⟩ := write_ok (d := memory) b h hn 0x390 userCfg
  generalize (write (pins memory) 0x390 userCfg b).2 = b1 at *
  obtain ⟨h2, n2, e2⟩ := write_ok (d := memory) b1 h1 n1 0x3B0 ats
  generalize (write (pins memory) 0x3B0 ats b1).2 = b2 at *
  obtain ⟨h3, n3, e3⟩ := write_ok (d := memory) b2 h2 n2 0x3BC atqaSak
  generalize (write (pins memory) 0x3BC atqaSak b2).2 = b3 at *
  have h4 : (Fm.read (pins memory) 0 9 b3).2.2.Ready ∧ (Fm.read (pins memory) 0 9 b3).2.2.dev = b3.dev ∧
      (Fm.read (pins memory) 0 9 b3).2.1 = bytesAt b3.dev 0 9 := by
    rcases C118_read_partial (d := memory) b3 h3 0 9 (by decide) with ⟨b', e, hi, hd⟩ | ⟨b', _, _, _, hr⟩
    · rw [e]
      exact ⟨⟨hi.1, by rw [hi.2]; rfl⟩, by rw [hd, readN_mem], by simp only; rw [readN_mem]; rfl⟩
    · rw [n3] at hr
      cases hr
  have n4 := read_nil (d := memory) b3 0 9 n3
  obtain ⟨_, _, e5⟩ := write_ok (d := memory) (Fm.read (pins memory) 0 9 b3).2.2 h4.1 n4 0x3BB
    [UInt8.ofNat (crc8 (((Fm.read (pins memory) 0 9 b3).2.1 ++ stack.drop (Fm.read (pins memory) 0 9 b3).2.1.length).take 9 ++ atqaSak))]
  rw [e5, h4.2.2, h4.2.1]
  have hl : (bytesAt b3.dev 0 9 ++ stack.drop (bytesAt b3.dev 0 9).length).take 9 = bytesAt b3.dev 0 9 := by
    rw [List.take_append_of_le_length (by simp [bytesAt])]
    exact List.take_of_length_le (by simp [bytesAt])
  rw [hl]
  have val : ∀ c i, writeN memory (0x3BB : UInt16).toNat [c] b3.dev i =
      if i = 0x3BB then c else if 0x3BC ≤ i ∧ i < 0x3C0 then atqaSak.getD (i - 0x3BC) 0
      else if 0x3B0 ≤ i ∧ i < 0x3B7 then ats.getD (i - 0x3B0) 0
      else if 0x390 ≤ i ∧ i < 0x394 then userCfg.getD (i - 0x390) 0 else b.dev i := by
    intro c i
    rw [writeN_mem, e3, writeN_mem, e2, writeN_mem, e1, writeN_mem]
    by_cases hi : i = 0x3BB
    · subst hi; rfl
    · rw [if_neg (by simp; omega), if_neg hi]
      rfl
  have sn : ∀ c, bytesAt (writeN memory (0x3BB : UInt16).toNat [c] b3.dev) 0 9 = bytesAt b3.dev 0 9 := by
    intro c
    apply List.map_congr_left
    intro i hi
    rw [List.mem_range] at hi
    rw [writeN_mem, if_neg (by simp; omega)]
  have at4 : ∀ c, bytesAt (writeN memory (0x3BB : UInt16).toNat [c] b3.dev) 0x3BC 4 = atqaSak := by
    intro c
    simp only [bytesAt, val]
    rfl
  refine ⟨?_, ?_, at4 _, ?_⟩
  · simp only [bytesAt, val]
    rfl
  · simp only [bytesAt, val]
    rfl
  · rw [sn, at4, val, if_pos rfl, UInt8.toNat_ofNat']
    exact Nat.mod_eq_of_lt (fold_lt _ (by decide))

/-- The bus before the start, with a chip that refuses one byte: the first one of the reading of the serial number. -/
def flaky : Bus (Nat → Byte) := ⟨fun _ => 0, .idle, 0, true, List.replicate 24 false ++ [true]⟩

/-- **C123, refuted for a chip that refuses a byte.** If the serial number cannot be read then the checksum is computed
over what was on the stack, and written, and the start goes on: the checksum in the chip is wrong. -/
theorem C123_refuted_stack : flaky.Ready ∧ ¬Configured (init (pins memory) (List.replicate 13 0x11) flaky).dev := by
  refine ⟨⟨rfl, rfl⟩, fun h => ?_⟩
  exact absurd h.crc (by decide +kernel)

/-- A chip that refuses nothing. -/
example : (⟨fun i => UInt8.ofNat i, .idle, 0, true, []⟩ : Bus (Nat → Byte)).Ready := ⟨rfl, rfl⟩

end Verif.FmNt
