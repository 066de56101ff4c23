import Verif.Model.CtapEnc
import Verif.Spec.Cbor
/-
Writing CBOR with the calls of the encoder, and reading it.
-/
namespace Verif.Ctap.Enc
open Verif.Spec.Cbor (Val be cut arg item items pairs Decodes)

/-! ### Heads -/

theorem length_beBytes (k n : Nat) : (beBytes k n).length = k := by
  induction k generalizing n with
  | zero => rfl
  | succ k ih => simp [beBytes, ih]

theorem be_append (a b : Bytes) : be (a ++ b) = be a * 256 ^ b.length + be b := by
  induction a with
  | nil => simp [be]
  | cons x a ih => simp only [List.cons_append, be, ih, List.length_append, Nat.pow_add, Nat.add_mul, Nat.mul_assoc, Nat.add_assoc]

theorem be_beBytes (k n : Nat) (h : n < 256 ^ k) : be (beBytes k n) = n := by
  induction k generalizing n with
  | zero => simp at h; subst h; rfl
  | succ k ih =>
    rw [beBytes, be_append, ih (n / 256) (by rw [Nat.div_lt_iff_lt_mul (by decide)]; rw [Nat.pow_succ] at h; exact h)]
    simp only [be, List.length_cons, List.length_nil, Nat.zero_add, Nat.pow_one, Nat.pow_zero, Nat.mul_one, Nat.add_zero, UInt8.toNat_ofNat']
    omega

theorem cut_append (a b : Bytes) : cut a.length (a ++ b) = some (a, b) := by
  unfold cut
  rw [if_pos (by simp), List.take_left, List.drop_left]

theorem cut_be (k n : Nat) (h : n < 256 ^ k) (b : Bytes) :
    (cut k (beBytes k n ++ b)).map (fun p => (be p.1, p.2)) = some (n, b) := by
  have := cut_append (beBytes k n) b
  rw [length_beBytes] at this
  rw [this]
  simp [be_beBytes k n h]

/-- A head of major type `m` and argument `n`. -/
structure Head (m n : Nat) (b : Bytes) : Prop where
  rd : ∃ h t, b = h :: t ∧ h.toNat / 32 = m ∧ ∀ rest, arg (h.toNat % 32) (t ++ rest) = some (n, rest)

theorem head_ok (m n : Nat) (hm : m < 8) (hn : n < 2 ^ 64) : Head m n (head m n) := by
  unfold head
  split
  · rename_i h
    refine ⟨_, _, rfl, ?_, fun rest => ?_⟩
    · simp only [UInt8.toNat_ofNat']; omega
    · have : (UInt8.ofNat (m * 32 + n)).toNat % 32 = n := by simp only [UInt8.toNat_ofNat']; omega
      rw [this, arg, if_pos h]; rfl
  split
  · rename_i h0 h
    refine ⟨_, _, rfl, ?_, fun rest => ?_⟩
    · simp only [UInt8.toNat_ofNat']; omega
    · have : (UInt8.ofNat (m * 32 + 24)).toNat % 32 = 24 := by simp only [UInt8.toNat_ofNat']; omega
      rw [this, arg, if_neg (by decide), if_pos rfl]
      exact cut_be 1 n h rest
  split
  · rename_i h0 h1 h
    refine ⟨_, _, rfl, ?_, fun rest => ?_⟩
    · simp only [UInt8.toNat_ofNat']; omega
    · have : (UInt8.ofNat (m * 32 + 25)).toNat % 32 = 25 := by simp only [UInt8.toNat_ofNat']; omega
      rw [this, arg, if_neg (by decide), if_neg (by decide), if_pos rfl]
      exact cut_be 2 n h rest
  split
  · rename_i h0 h1 h2 h
    refine ⟨_, _, rfl, ?_, fun rest => ?_⟩
    · simp only [UInt8.toNat_ofNat']; omega
    · have : (UInt8.ofNat (m * 32 + 26)).toNat % 32 = 26 := by simp only [UInt8.toNat_ofNat']; omega
      rw [this, arg, if_neg (by decide), if_neg (by decide), if_neg (by decide), if_pos rfl]
      exact cut_be 4 n h rest
  · refine ⟨_, _, rfl, ?_, fun rest => ?_⟩
    · simp only [UInt8.toNat_ofNat']; omega
    · have : (UInt8.ofNat (m * 32 + 27)).toNat % 32 = 27 := by simp only [UInt8.toNat_ofNat']; omega
      rw [this, arg, if_neg (by decide), if_neg (by decide), if_neg (by decide), if_neg (by decide), if_pos rfl]
      exact cut_be 8 n hn rest

theorem length_head (m n : Nat) : (head m n).length =
    if n < 24 then 1 else if n < 2 ^ 8 then 2 else if n < 2 ^ 16 then 3 else if n < 2 ^ 32 then 5 else 9 := by
  unfold head
  split; · rfl
  split; · simp [length_beBytes]
  split; · simp [length_beBytes]
  split <;> simp [length_beBytes]

theorem head_pos (m n : Nat) : 0 < (head m n).length := by
  rw [length_head]; repeat' split
  all_goals decide

/-! ### Pieces -/

/-- The calls write these bytes, which are the encoding of the item. -/
structure Piece (ts : List Tok) (b : Bytes) (v : Val) : Prop where
  run : ∀ (w : W) rest, w.out.length + b.length ≤ w.cap → w.run (ts ++ rest) = W.run { w.count with out := w.out ++ b } rest
  dec : ∀ fuel rest, 2 * b.length ≤ fuel + 1 → item fuel (b ++ rest) = some (v, rest)
  pos : 0 < b.length

/-- The calls write these bytes, which are the encodings of the `n` items. -/
structure Seq (n : Nat) (ts : List Tok) (b : Bytes) (l : List Val) : Prop where
  run : ∀ (w : W) rest k o, w.open' = (n + k) :: o → w.out.length + b.length ≤ w.cap →
    w.run (ts ++ rest) = W.run { w with out := w.out ++ b, open' := k :: o } rest
  dec : ∀ fuel m rest, 2 * b.length ≤ fuel → items fuel (n + m) (b ++ rest) = (items (fuel - n) m rest).map fun p => (l ++ p.1, p.2)
  len : n ≤ b.length

/-- The calls write these bytes, which are the encodings of the `n` pairs. -/
structure Pairs (n : Nat) (ts : List Tok) (b : Bytes) (l : List (Val × Val)) : Prop where
  run : ∀ (w : W) rest k o, w.open' = (2 * n + k) :: o → w.out.length + b.length ≤ w.cap →
    w.run (ts ++ rest) = W.run { w with out := w.out ++ b, open' := k :: o } rest
  dec : ∀ fuel m rest, 2 * b.length ≤ fuel → pairs fuel (n + m) (b ++ rest) = (pairs (fuel - n) m rest).map fun p => (l ++ p.1, p.2)
  len : 2 * n ≤ b.length

theorem Pairs.nil : Pairs 0 [] [] [] := by
  refine ⟨fun w rest k o h _ => ?_, fun fuel m rest _ => ?_, by simp⟩
  · obtain ⟨cap, out, open'⟩ := w
    simp only at h; subst h
    simp
  · simp

theorem Pairs.append {n n' ts ts' b b' l l'} (h : Pairs n ts b l) (h' : Pairs n' ts' b' l') :
    Pairs (n + n') (ts ++ ts') (b ++ b') (l ++ l') := by
  refine ⟨fun w rest k o ho hf => ?_, fun fuel m rest hf => ?_, ?_⟩
  · rw [List.length_append] at hf
    rw [List.append_assoc, h.run w _ (2 * n' + k) o (by rw [ho]; congr 1; omega) (by omega),
      h'.run _ _ k o rfl (by simp; omega)]
    simp
  · rw [List.length_append] at hf
    rw [List.append_assoc, Nat.add_assoc, h.dec _ _ _ (by omega), h'.dec _ _ _ (by have := h.len; omega)]
    simp [Function.comp_def, Nat.sub_sub]
  · have := h.len; have := h'.len; simp; omega

theorem Pairs.one {tk tv bk bv k v} (h : Piece tk bk k) (h' : Piece tv bv v) : Pairs 1 (tk ++ tv) (bk ++ bv) [(k, v)] := by
  refine ⟨fun w rest m o ho hf => ?_, fun fuel m rest hf => ?_, ?_⟩
  · rw [List.length_append] at hf
    rw [List.append_assoc, h.run w _ (by omega), h'.run _ _ (by simp [W.count]; omega)]
    simp only [W.count, ho, List.append_assoc]
    congr 2
    congr 1
    omega
  · rw [List.length_append] at hf
    have p := h.pos
    have p' := h'.pos
    obtain ⟨fuel, rfl⟩ : ∃ f, fuel = f + 1 := ⟨fuel - 1, by omega⟩
    rw [Nat.add_comm 1 m, pairs, List.append_assoc, h.dec _ _ (by omega)]
    simp only
    rw [h'.dec _ _ (by omega)]
    simp
  · have := h.pos; have := h'.pos; simp; omega

theorem Pairs.opt {n ts b l} (c : Bool) (h : c = true → Pairs n ts b l) :
    Pairs (if c then n else 0) (cond c ts) (if c then b else []) (if c then l else []) := by
  cases c
  · exact Pairs.nil
  · exact h rfl

theorem Pairs.cast {n n' ts ts' b b' l l'} (h : Pairs n ts b l) (hn : n = n') (ht : ts = ts') (hb : b = b') (hl : l = l') :
    Pairs n' ts' b' l' := by subst hn ht hb hl; exact h

theorem Seq.nil : Seq 0 [] [] [] := by
  refine ⟨fun w rest k o h _ => ?_, fun fuel m rest _ => ?_, by simp⟩
  · obtain ⟨cap, out, open'⟩ := w
    simp only [Nat.zero_add] at h; subst h
    simp
  · simp

theorem Seq.append {n n' ts ts' b b' l l'} (h : Seq n ts b l) (h' : Seq n' ts' b' l') :
    Seq (n + n') (ts ++ ts') (b ++ b') (l ++ l') := by
  refine ⟨fun w rest k o ho hf => ?_, fun fuel m rest hf => ?_, ?_⟩
  · rw [List.length_append] at hf
    rw [List.append_assoc, h.run w _ (n' + k) o (by rw [ho]; congr 1; omega) (by omega),
      h'.run _ _ k o rfl (by simp; omega)]
    simp
  · rw [List.length_append] at hf
    rw [List.append_assoc, Nat.add_assoc, h.dec _ _ _ (by omega), h'.dec _ _ _ (by have := h.len; omega)]
    simp [Function.comp_def, Nat.sub_sub]
  · have := h.len; have := h'.len; simp; omega

theorem Seq.one {ts b v} (h : Piece ts b v) : Seq 1 ts b [v] := by
  refine ⟨fun w rest m o ho hf => ?_, fun fuel m rest hf => ?_, ?_⟩
  · rw [h.run w _ hf]
    simp only [W.count, ho]
    congr 2
    congr 1
    omega
  · have p := h.pos
    obtain ⟨fuel, rfl⟩ : ∃ f, fuel = f + 1 := ⟨fuel - 1, by omega⟩
    rw [Nat.add_comm 1 m, items, h.dec _ _ (by omega)]
    simp
  · exact h.pos

theorem Seq.opt {n ts b l} (c : Bool) (h : c = true → Seq n ts b l) :
    Seq (if c then n else 0) (cond c ts) (if c then b else []) (if c then l else []) := by
  cases c
  · exact Seq.nil
  · exact h rfl

/-! ### Items -/

theorem put_ok {w : W} {b : Bytes} (h : w.out.length + b.length ≤ w.cap) : w.put b = .ok { w with out := w.out ++ b } := if_pos h
theorem raw_ok {w : W} {b : Bytes} (h : w.out.length + b.length ≤ w.cap) : w.raw b = .ok { w with out := w.out ++ b } := if_pos h

@[simp] theorem count_out (w : W) : w.count.out = w.out := rfl
@[simp] theorem count_cap (w : W) : w.count.cap = w.cap := rfl

theorem run_cons {w w' : W} {t : Tok} (ts : List Tok) (h : w.step t = .ok w') : w.run (t :: ts) = w'.run ts := by
  rw [W.run, h]; rfl

theorem piece_int {v : Int} (h : -2 ^ 64 ≤ v) (h' : v < 2 ^ 64) : Piece [.int v] (intHead v) (.int v) := by
  refine ⟨fun w rest hf => ?_, fun fuel rest hf => ?_, ?_⟩
  · exact run_cons _ (put_ok hf)
  · unfold intHead at *
    by_cases hv : 0 ≤ v
    · rw [if_pos hv] at hf ⊢
      obtain ⟨⟨h0, t, e, hm, ha⟩⟩ := head_ok 0 v.toNat (by decide) (by omega)
      rw [e] at hf ⊢
      simp only [List.length_cons] at hf
      obtain ⟨fuel, rfl⟩ : ∃ f, fuel = f + 1 := ⟨fuel - 1, by omega⟩
      rw [List.cons_append, item, ha]
      simp only [hm]
      have : ((v.toNat : Nat) : Int) = v := by omega
      rw [this]
    · rw [if_neg hv] at hf ⊢
      obtain ⟨⟨h0, t, e, hm, ha⟩⟩ := head_ok 1 (-1 - v).toNat (by decide) (by omega)
      rw [e] at hf ⊢
      simp only [List.length_cons] at hf
      obtain ⟨fuel, rfl⟩ : ∃ f, fuel = f + 1 := ⟨fuel - 1, by omega⟩
      rw [List.cons_append, item, ha]
      simp only [hm]
      have : (-1 - (((-1 - v).toNat : Nat) : Int)) = v := by omega
      rw [this]
  · unfold intHead; split <;> exact head_pos _ _

theorem dec_bytes {h b : Bytes} (hd : Head 2 b.length h) (fuel : Nat) (rest : Bytes) (hf : 2 * (h ++ b).length ≤ fuel + 1) :
    item fuel (h ++ b ++ rest) = some (.bytes b, rest) := by
  obtain ⟨⟨h0, t, e, hm, ha⟩⟩ := hd
  subst e
  simp only [List.length_append, List.length_cons] at hf
  obtain ⟨fuel, rfl⟩ : ∃ f, fuel = f + 1 := ⟨fuel - 1, by omega⟩
  rw [List.append_assoc, List.cons_append, item, ha]
  simp only [hm, cut_append, Option.map_some]

theorem piece_bytes {b : Bytes} (h : b.length < 2 ^ 64) : Piece [.bytes b] (head 2 b.length ++ b) (.bytes b) := by
  refine ⟨fun w rest hf => ?_, fun fuel rest hf => ?_, ?_⟩
  · rw [List.length_append] at hf
    refine (run_cons _ (?_ : W.step w (.bytes b) = .ok { w.count with out := w.out ++ (head 2 b.length ++ b) }))
    simp only [W.step]
    rw [put_ok (by simp; omega)]
    show W.put _ b = _
    rw [put_ok (by simp; omega)]
    simp
  · exact dec_bytes (head_ok 2 _ (by decide) h) fuel rest hf
  · have := head_pos 2 b.length; simp; omega

theorem piece_text {b : Bytes} (h : b.length < 2 ^ 64) : Piece [.text b] (head 3 b.length ++ b) (.text b) := by
  refine ⟨fun w rest hf => ?_, fun fuel rest hf => ?_, ?_⟩
  · rw [List.length_append] at hf
    refine (run_cons _ (?_ : W.step w (.text b) = .ok { w.count with out := w.out ++ (head 3 b.length ++ b) }))
    simp only [W.step]
    rw [put_ok (by simp; omega)]
    show W.put _ b = _
    rw [put_ok (by simp; omega)]
    simp
  · obtain ⟨⟨h0, t, e, hm, ha⟩⟩ := head_ok 3 b.length (by decide) h
    rw [e] at hf ⊢
    simp only [List.length_append, List.length_cons] at hf
    obtain ⟨fuel, rfl⟩ : ∃ f, fuel = f + 1 := ⟨fuel - 1, by omega⟩
    rw [List.append_assoc, List.cons_append, item, ha]
    simp only [hm, cut_append, Option.map_some]
  · have := head_pos 3 b.length; simp; omega

theorem piece_bool (c : Bool) : Piece [.bool c] [if c then 0xF5 else 0xF4] (.bool c) := by
  refine ⟨fun w rest hf => run_cons _ (put_ok hf), fun fuel rest hf => ?_, by simp⟩
  simp only [List.length_cons, List.length_nil] at hf
  obtain ⟨fuel, rfl⟩ : ∃ f, fuel = f + 1 := ⟨fuel - 1, by omega⟩
  cases c <;> simp [item, arg]

theorem piece_rawBytes {b : Bytes} (h : b.length < 2 ^ 64) : Piece [.rawBytes b] (head 2 b.length ++ b) (.bytes b) := by
  refine ⟨fun w rest hf => ?_, fun fuel rest hf => ?_, ?_⟩
  · rw [List.length_append] at hf
    refine (run_cons _ (?_ : W.step w (.rawBytes b) = .ok { w.count with out := w.out ++ (head 2 b.length ++ b) }))
    simp only [W.step]
    rw [put_ok (by simp; omega)]
    show W.raw _ b = _
    rw [raw_ok (by simp; omega)]
    simp
  · exact dec_bytes (head_ok 2 _ (by decide) h) fuel rest hf
  · have := head_pos 2 b.length; simp; omega

/-- Head of a byte string with the length in two bytes. -/
def head59 (n : Nat) : Bytes := [0x59, UInt8.ofNat (n / 256), UInt8.ofNat n]

theorem head59_ok (n : Nat) (h : n < 65536) : Head 2 n (head59 n) := by
  refine ⟨_, _, rfl, by decide, fun rest => ?_⟩
  show arg 25 _ = _
  rw [arg, if_neg (by decide), if_neg (by decide), if_pos rfl]
  have : (be [UInt8.ofNat (n / 256), UInt8.ofNat n]) = n := by
    simp only [be, UInt8.toNat_ofNat', List.length_cons, List.length_nil]; omega
  simp only [List.cons_append, List.nil_append, cut]
  rw [if_pos (by simp)]
  simp [this]

/-- An empty byte string and then the certificate in its place. -/
theorem piece_cert {b : Bytes} (h : b.length < 65536) : Piece [.bytes [], .cert b] (head59 b.length ++ b) (.bytes b) := by
  refine ⟨fun w rest hf => ?_, fun fuel rest hf => dec_bytes (head59_ok _ h) fuel rest hf, by simp [head59]⟩
  have hl : (head59 b.length ++ b).length = 3 + b.length := by simp [head59]; omega
  rw [hl] at hf
  have s1 : W.step w (.bytes []) = .ok { w.count with out := w.out ++ [0x40] } := by
    simp only [W.step]
    rw [put_ok (by show _ + 1 ≤ _; simp; omega)]
    show W.put _ [] = _
    rw [put_ok (by show _ + 0 ≤ _; simp [head]; omega)]
    simp [head]
  rw [List.cons_append, run_cons _ s1, List.cons_append]
  refine run_cons _ ?_
  simp only [W.step, List.dropLast_concat]
  rw [raw_ok (by simp; omega)]
  rfl

/-- An empty map and then something in its place. -/
theorem run_fill (b : Bytes) (n : Nat) (hb : n ≤ b.length) (hp : 0 < b.length) (w : W) (rest : List Tok)
    (hf : w.out.length + b.length ≤ w.cap) :
    w.run ([.map 0, .fill b n, .close] ++ rest) = W.run { w.count with out := w.out ++ b.take n } rest := by
  have s1 : W.step w (.map 0) = .ok { w.count with out := w.out ++ [0xA0], open' := 1 :: w.count.open' } := by
    simp only [W.step]
    rw [put_ok (by show _ + 1 ≤ _; simp; omega)]
    simp [head]
    rfl
  rw [List.cons_append, run_cons _ s1, List.cons_append]
  have s2 : W.step { w.count with out := w.out ++ [0xA0], open' := 1 :: w.count.open' } (.fill b n) =
      .ok { w.count with out := w.out ++ b.take n, open' := 1 :: w.count.open' } := by
    simp only [W.step, List.dropLast_concat]
    rw [raw_ok (by simp; omega)]
    show Except.ok _ = _
    congr 2
    simp [List.take_append, List.take_of_length_le]
  rw [run_cons _ s2, List.cons_append]
  exact run_cons _ rfl

/-- An empty map and then an item in its place. -/
theorem piece_fill {ts b v} (h : Piece ts b v) : Piece [.map 0, .fill b b.length, .close] b v := by
  refine ⟨fun w rest hf => ?_, h.dec, h.pos⟩
  rw [run_fill b b.length (Nat.le_refl _) h.pos w rest hf, List.take_length]

theorem length_pairs_head (n : Nat) (h : n < 24) (m : Nat) : (head m n).length = 1 := by rw [length_head, if_pos h]

theorem piece_map {n ts b l} (h : Pairs n ts b l) (hn : n < 2 ^ 64) : Piece (.map n :: (ts ++ [.close])) (head 5 n ++ b) (.map l) := by
  refine ⟨fun w rest hf => ?_, fun fuel rest hf => ?_, ?_⟩
  · rw [List.length_append] at hf
    have s1 : W.step w (.map n) = .ok { w.count with out := w.out ++ head 5 n, open' := (2 * n + 1) :: w.count.open' } := by
      simp only [W.step]
      rw [put_ok (by simp; omega)]
      rfl
    rw [List.cons_append, run_cons _ s1, List.append_assoc, h.run _ _ 1 _ rfl (by simp; omega)]
    refine (run_cons _ (rfl : W.step _ .close = .ok _)).trans ?_
    simp
  · obtain ⟨⟨h0, t, e, hm, ha⟩⟩ := head_ok 5 n (by decide) hn
    rw [e] at hf ⊢
    simp only [List.length_append, List.length_cons] at hf
    obtain ⟨fuel, rfl⟩ : ∃ f, fuel = f + 1 := ⟨fuel - 1, by omega⟩
    rw [List.append_assoc, List.cons_append, item, ha]
    simp only [hm]
    have := h.dec fuel 0 rest (by omega)
    rw [Nat.add_zero] at this
    rw [this]
    simp [pairs]
  · have := head_pos 5 n; simp; omega

theorem piece_arr {n ts b l} (h : Seq n ts b l) (hn : n < 2 ^ 64) : Piece (.arr n :: (ts ++ [.close])) (head 4 n ++ b) (.arr l) := by
  refine ⟨fun w rest hf => ?_, fun fuel rest hf => ?_, ?_⟩
  · rw [List.length_append] at hf
    have s1 : W.step w (.arr n) = .ok { w.count with out := w.out ++ head 4 n, open' := (n + 1) :: w.count.open' } := by
      simp only [W.step]
      rw [put_ok (by simp; omega)]
      rfl
    rw [List.cons_append, run_cons _ s1, List.append_assoc, h.run _ _ 1 _ rfl (by simp; omega)]
    refine (run_cons _ (rfl : W.step _ .close = .ok _)).trans ?_
    simp
  · obtain ⟨⟨h0, t, e, hm, ha⟩⟩ := head_ok 4 n (by decide) hn
    rw [e] at hf ⊢
    simp only [List.length_append, List.length_cons] at hf
    obtain ⟨fuel, rfl⟩ : ∃ f, fuel = f + 1 := ⟨fuel - 1, by omega⟩
    rw [List.append_assoc, List.cons_append, item, ha]
    simp only [hm]
    have := h.dec fuel 0 rest (by omega)
    rw [Nat.add_zero] at this
    rw [this]
    simp [items]
  · have := head_pos 4 n; simp; omega

theorem Piece.write {ts b v} (h : Piece ts b v) {cap : Nat} (hc : b.length ≤ cap) : write cap ts = .ok b := by
  have := h.run ⟨cap, [], []⟩ [] (by simpa using hc)
  rw [List.append_nil] at this
  unfold Enc.write
  rw [this]
  rfl

theorem Piece.decodes {ts b v} (h : Piece ts b v) : Decodes b v := by
  have := h.dec (2 * b.length) [] (by omega)
  rwa [List.append_nil] at this

theorem Piece.cast {ts ts' b b' v v'} (h : Piece ts b v) (ht : ts = ts') (hb : b = b') (hv : v = v') : Piece ts' b' v' := by
  subst ht hb hv; exact h

end Verif.Ctap.Enc
