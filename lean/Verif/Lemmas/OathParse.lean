import Verif.Base.Calc
import Verif.Spec.Oath
set_option linter.unusedSimpArgs false
namespace Verif.Oath
open Verif.Spec.Oath

/-! ### Parsers never leave the command data -/

theorem parseName_safe (d : Bytes) : Safe (parseName d) (fun _ => True) := by
  safe_tac [parseName]
theorem parseRename_safe (d : Bytes) : Safe (parseRename d) (fun _ => True) := by
  safe_tac [parseRename]
theorem parseValidate_safe (d : Bytes) : Safe (parseValidate d) (fun _ => True) := by
  safe_tac [parseValidate]
theorem parseSetCode_safe (d : Bytes) : Safe (parseSetCode d) (fun _ => True) := by
  safe_tac [parseSetCode]
theorem parseCalcName_safe (d : Bytes) : Safe (parseCalcName d) (fun _ => True) := by
  safe_tac [parseCalcName]
theorem parseChal_safe (d : Bytes) (o : Nat) : Safe (parseChal d o) (fun _ => True) := by
  safe_tac [parseChal]
theorem parsePass_safe (d : Bytes) : Safe (parsePass d) (fun _ => True) := by
  safe_tac [parsePass]
theorem parseProp_safe (d : Bytes) (off : Nat) : Safe (parseProp d off) (fun p => off ≤ p.2) := by
  simp only [parseProp, PE.throw_bind]
  repeat' first
    | exact Safe.throw
    | (refine Safe.pure ?_; simp; done)
    | (refine Safe.ite ?_ ?_ <;> intro _)
    | (refine Safe.bind (Safe.rd' (by safe_omega)) ?_; intro _ _)
theorem parseCounter_safe (d : Bytes) (a : Byte) (off : Nat) :
    Safe (parseCounter d a off) (fun p => off ≤ p.2) := by
  simp only [parseCounter, PE.throw_bind]
  repeat' first
    | exact Safe.throw
    | (refine Safe.pure ?_; simp; done)
    | (refine Safe.ite ?_ ?_ <;> intro _)
    | (refine Safe.bind (Safe.rd' (by safe_omega)) ?_; intro _ _)
    | (refine Safe.bind (Safe.rdRange (by safe_omega)) ?_; intro _ _)
theorem parsePut_safe (d : Bytes) : Safe (parsePut d) (fun _ => True) := by
  simp only [parsePut, PE.throw_bind, bne_iff_ne, beq_iff_eq, ne_eq]
  repeat' first
    | exact Safe.throw
    | exact Safe.pure trivial
    | (refine Safe.ite ?_ ?_ <;> intro _)
    | (refine Safe.bind (Safe.rd' (by safe_omega)) ?_; intro _ _)
    | (refine Safe.bind (parseProp_safe _ _) ?_; intro _ _)
    | (refine Safe.bind (parseCounter_safe _ _ _) ?_; intro _ _)
    | (refine Safe.bind (Safe.rdRange (by simp only [Decidable.not_not] at *; omega)) ?_; intro _ _)

/-! ### Parsers never report success as an error -/

theorem parsePut_throws (d : Bytes) : Throws (· ≠ SW.ok) (parsePut d) := by
  throws_tac [parsePut, parseProp, parseCounter]
theorem parseName_throws (d : Bytes) : Throws (· ≠ SW.ok) (parseName d) := by
  throws_tac [parseName]
theorem parseRename_throws (d : Bytes) : Throws (· ≠ SW.ok) (parseRename d) := by
  throws_tac [parseRename]
theorem parseValidate_throws (d : Bytes) : Throws (· ≠ SW.ok) (parseValidate d) := by
  throws_tac [parseValidate]
theorem parseSetCode_throws (d : Bytes) : Throws (· ≠ SW.ok) (parseSetCode d) := by
  throws_tac [parseSetCode]
theorem parseCalcName_throws (d : Bytes) : Throws (· ≠ SW.ok) (parseCalcName d) := by
  throws_tac [parseCalcName]
theorem parseChal_throws (d : Bytes) (o : Nat) : Throws (· ≠ SW.ok) (parseChal d o) := by
  throws_tac [parseChal]
theorem parsePass_throws (d : Bytes) : Throws (· ≠ SW.ok) (parsePass d) := by
  throws_tac [parsePass]

/-! ### What the parsers accept -/

theorem drop_of_getElem? {d : Bytes} {i : Nat} {b : Byte} (h : d[i]? = some b) :
    d.drop i = b :: d.drop (i + 1) := by
  obtain ⟨hi, rfl⟩ := List.getElem?_eq_some_iff.mp h
  exact List.drop_eq_getElem_cons hi

theorem drop_of_take {d x : Bytes} {i n : Nat} (h : (d.drop i).take n = x) :
    d.drop i = x ++ d.drop (i + n) := by
  rw [← h, ← List.drop_drop, List.take_append_drop]

theorem getElem?_of_drop {d t : Bytes} {i : Nat} {b : Byte} (h : d.drop i = b :: t) :
    d[i]? = some b := by
  have := congrArg (·[0]?) h
  simpa using this

theorem drop_succ {d t : Bytes} {i : Nat} {b : Byte} (h : d.drop i = b :: t) :
    d.drop (i + 1) = t := by
  rw [← List.drop_drop, h]; rfl

theorem drop_add {d x t : Bytes} {i : Nat} (h : d.drop i = x ++ t) :
    d.drop (i + x.length) = t := by
  rw [← List.drop_drop, h]; simp

theorem len_of_drop {d x : Bytes} {i : Nat} (h : d.drop i = x) (hx : x ≠ []) :
    d.length = i + x.length := by
  have := congrArg List.length h
  have h2 : 0 < x.length := List.length_pos_iff.mpr hx
  simp at this; omega

theorem toNat_ofNat_lt {n : Nat} (h : n < 256) : (UInt8.ofNat n).toNat = n := by
  simp; omega

theorem validLen {n : Bytes} (h : ValidName n) :
    (UInt8.ofNat n.length).toNat = n.length ∧ ¬ UInt8.ofNat n.length > 64 ∧
      ¬ UInt8.ofNat n.length = 0 := by
  obtain ⟨h1, h2⟩ := h
  have e := toNat_ofNat_lt (n := n.length) (by omega)
  refine ⟨e, ?_, ?_⟩
  · rw [gt_iff_lt, UInt8.lt_iff_toNat_lt, e]; simp; omega
  · intro h; rw [← UInt8.toNat_inj, e, UInt8.toNat_zero] at h; omega

theorem validOf {b : Byte} {n : Bytes} (h : n.length = b.toNat) (h1 : ¬ b > 64) (h2 : ¬ b = 0) :
    ValidName n := by
  rw [gt_iff_lt, UInt8.lt_iff_toNat_lt] at h1
  rw [← UInt8.toNat_inj] at h2
  simp at h1 h2
  exact ⟨by omega, by omega⟩

theorem parseName_ok (d n : Bytes) : PE.Ok (parseName d) n ↔ NameReq d n := by
  parse_ok [parseName]
  constructor
  · rintro ⟨_, t, h0, rfl, nl, h1, ⟨h2, h3⟩, h4, h5, h6⟩
    have hn : n.length = nl.toNat := by rw [← h6]; simp; omega
    refine ⟨validOf hn h2 h3, d.drop (2 + nl.toNat), ?_⟩
    have e0 := drop_of_getElem? h0
    have e1 := drop_of_getElem? h1
    have e2 := drop_of_take h6
    rw [List.drop_zero] at e0
    simp only [Nat.zero_add, Nat.reduceAdd] at e0 e1
    simp only [nameTlv, hn, UInt8.ofNat_toNat]
    refine e0.trans ?_
    rw [e1, e2]
    simp
  · rintro ⟨hv, rest, rfl⟩
    obtain ⟨e, h1, h2⟩ := validLen hv
    refine ⟨by simp [nameTlv], 0x71, by simp [nameTlv], rfl, UInt8.ofNat n.length, by simp [nameTlv],
      ⟨h1, h2⟩, ?_, ?_, ?_⟩
    · rw [e]; simp [nameTlv]; omega
    · rw [e]; simp [nameTlv]; omega
    · rw [e]; simp [nameTlv]

theorem parseCalcName_ok (d n : Bytes) (off : Nat) :
    PE.Ok (parseCalcName d) (n, off) ↔ NameReq d n ∧ off = 2 + n.length := by
  rw [← parseName_ok]
  parse_ok [parseName, parseCalcName]
  constructor
  · rintro ⟨h0, t, h1, h2, nl, h3, h4, h5, x, ⟨h6, h7⟩, h8⟩
    obtain ⟨rfl, rfl⟩ := Prod.mk.inj h8
    have hn : x.length = nl.toNat := by rw [← h7]; simp; omega
    exact ⟨⟨by omega, t, h1, h2, nl, h3, h4, h5, h6, h7⟩, by rw [hn]⟩
  · rintro ⟨⟨h0, t, h1, h2, nl, h3, h4, h5, h6, h7⟩, rfl⟩
    have hn : n.length = nl.toNat := by rw [← h7]; simp; omega
    have := (validOf hn h4.1 h4.2).1
    exact ⟨by omega, t, h1, h2, nl, h3, h4, h5, n, ⟨h6, h7⟩, by rw [hn]⟩

theorem parseChal_ok (d : Bytes) (off : Nat) (c : Bytes) :
    PE.Ok (parseChal d off) c ↔
      1 ≤ c.length ∧ c.length ≤ 8 ∧ ∃ rest, d.drop off = chalTlv c ++ rest := by
  parse_ok [parseChal]
  constructor
  · rintro ⟨_, t, h0, rfl, cl, h1, ⟨h2, h3⟩, h4, h5, h6⟩
    have hn : c.length = cl.toNat := by rw [← h6]; simp; omega
    rw [gt_iff_lt, UInt8.lt_iff_toNat_lt] at h2
    rw [← UInt8.toNat_inj] at h3
    simp at h2 h3
    refine ⟨by omega, by omega, d.drop (off + 2 + cl.toNat), ?_⟩
    rw [drop_of_getElem? h0, drop_of_getElem? h1]
    simp only [Nat.add_assoc, Nat.reduceAdd] at h6 ⊢
    rw [drop_of_take h6]
    simp [chalTlv, hn, Nat.add_assoc]
  · rintro ⟨h1, h2, rest, h⟩
    have e := toNat_ofNat_lt (n := c.length) (by omega)
    have hl := len_of_drop h (by simp [chalTlv])
    have hl' : d.length = off + (2 + c.length + rest.length) := by
      rw [hl]; simp [chalTlv]; omega
    have h' : d.drop off = 0x74 :: UInt8.ofNat c.length :: (c ++ rest) := by rw [h]; simp [chalTlv]
    have h'' := drop_succ h'
    have h3 := drop_succ h''
    refine ⟨by omega, 0x74, getElem?_of_drop h', rfl, _, getElem?_of_drop h'', ⟨?_, ?_⟩, ?_, ?_, ?_⟩
    · rw [gt_iff_lt, UInt8.lt_iff_toNat_lt, e]; simp; omega
    · intro hz; rw [← UInt8.toNat_inj, e, UInt8.toNat_zero] at hz; omega
    · rw [e]; omega
    · rw [e]; omega
    · rw [e, h3]; simp

theorem parseRename_ok (d old new : Bytes) :
    PE.Ok (parseRename d) (old, new) ↔ RenameReq d old new := by
  parse_ok [parseRename]
  constructor
  · rintro ⟨_, t, h0, rfl, ol, h1, ⟨h2, h3⟩, h4, t', h5, rfl, nl, h6, ⟨h7, h8⟩, h9, x, ⟨h10, h11⟩, y,
      ⟨h12, h13⟩, h14⟩
    obtain ⟨rfl, rfl⟩ := Prod.mk.inj h14
    have hx : x.length = ol.toNat := by rw [← h11]; simp; omega
    have hy : y.length = nl.toNat := by rw [← h13]; simp; omega
    refine ⟨validOf hx h2 h3, validOf hy h7 h8, d.drop (2 + ol.toNat + 2 + nl.toNat), ?_⟩
    have e0 := drop_of_getElem? h0
    have e1 := drop_of_getElem? h1
    have e2 := drop_of_take h11
    have e3 := drop_of_getElem? h5
    have e4 := drop_of_getElem? h6
    have e5 := drop_of_take h13
    rw [List.drop_zero] at e0
    simp only [Nat.zero_add, Nat.reduceAdd, Nat.add_assoc] at e0 e1 e2 e3 e4 e5 ⊢
    simp only [nameTlv, hx, hy, UInt8.ofNat_toNat]
    refine e0.trans ?_
    rw [e1, e2, e3, e4, e5]
    simp
  · rintro ⟨hv, hw, rest, rfl⟩
    obtain ⟨e, h1, h2⟩ := validLen hv
    obtain ⟨e', h1', h2'⟩ := validLen hw
    generalize hd : nameTlv old ++ (nameTlv new ++ rest) = d
    have d0 : d.drop 0 = 0x71 :: UInt8.ofNat old.length ::
        (old ++ (0x71 :: UInt8.ofNat new.length :: (new ++ rest))) := by rw [← hd]; simp [nameTlv]
    have d1 := drop_succ d0
    have d2 := drop_succ d1
    have d3 := drop_add d2
    have d4 := drop_succ d3
    have d5 := drop_succ d4
    have hl : d.length = 2 + old.length + 2 + new.length + rest.length := by
      rw [← hd]; simp [nameTlv]; omega
    have h3 := hv.1
    have h4 := hw.1
    simp only [Nat.zero_add, Nat.reduceAdd, Nat.add_assoc] at d1 d2 d3 d4 d5
    simp only [Nat.add_assoc, Nat.reduceAdd]
    refine ⟨by omega, 0x71, getElem?_of_drop d0, rfl, _, getElem?_of_drop d1, ⟨h1, h2⟩, ?_, 0x71, ?_, rfl,
      UInt8.ofNat new.length, ?_, ⟨h1', h2'⟩, ?_, old, ⟨?_, ?_⟩, new, ⟨?_, ?_⟩, rfl⟩
    · rw [e]; omega
    · rw [e]; exact getElem?_of_drop d3
    · rw [e]; exact getElem?_of_drop d4
    · rw [e, e']; omega
    · rw [e]; omega
    · rw [e, d2]; simp
    · rw [e, e']; omega
    · rw [e, e', d5]; simp

theorem propMask : ∀ p : Byte, (p &&& 0xFC = 0) ↔ p ≤ 3 := by decide +kernel

theorem noTag_of_getElem? {d : Bytes} {off : Nat} {a b : Byte} (h : d[off]? = some a) (hn : ¬ a = b) :
    ∀ t, d.drop off ≠ b :: t := by
  intro t ht
  have := getElem?_of_drop ht
  rw [h] at this; cases this; exact hn rfl

theorem noTag_of_len {d : Bytes} {off : Nat} {b : Byte} (h : d.length ≤ off) :
    ∀ t, d.drop off ≠ b :: t := by
  intro t ht
  rw [List.drop_eq_nil_of_le h] at ht; cases ht

theorem parseProp_ok (d : Bytes) (off : Nat) (p : Byte) (off' : Nat) :
    PE.Ok (parseProp d off) (p, off') ↔
      (d.drop off = 0x78 :: p :: d.drop (off + 2) ∧ p ≤ 3 ∧ off' = off + 2) ∨
      ((∀ t, d.drop off ≠ 0x78 :: t) ∧ p = 0 ∧ off' = off) := by
  parse_ok [parseProp]
  constructor
  · rintro (⟨h0, t, h1, (⟨rfl, h2, q, h3, h4, h5⟩ | ⟨h2, h3⟩)⟩ | ⟨h0, h1⟩)
    · obtain ⟨rfl, rfl⟩ := Prod.mk.inj h5
      exact .inl ⟨by rw [drop_of_getElem? h1, drop_of_getElem? h3], (propMask _).mp h4, rfl⟩
    · obtain ⟨rfl, rfl⟩ := Prod.mk.inj h3
      exact .inr ⟨noTag_of_getElem? h1 h2, rfl, rfl⟩
    · obtain ⟨rfl, rfl⟩ := Prod.mk.inj h1
      exact .inr ⟨noTag_of_len (by omega), rfl, rfl⟩
  · rintro (⟨h, hp, rfl⟩ | ⟨h, rfl, ho⟩)
    · have hl := len_of_drop h (by simp)
      simp only [List.length_cons] at hl
      exact .inl ⟨by omega, 0x78, getElem?_of_drop h,
        .inl ⟨rfl, by omega, p, getElem?_of_drop (drop_succ h), (propMask p).mpr hp, rfl⟩⟩
    · by_cases hl : d.length > off
      · refine .inl ⟨hl, d[off], by simp, .inr ⟨?_, by rw [ho]⟩⟩
        intro he
        exact h (d.drop (off + 1)) (by rw [← he]; exact List.drop_eq_getElem_cons hl)
      · exact .inr ⟨hl, by rw [ho]⟩

theorem parseCounter_ok (d : Bytes) (alg : Byte) (off : Nat) (c : Bytes) (off' : Nat) :
    PE.Ok (parseCounter d alg off) (c, off') ↔
      (∃ k : Bytes, k.length = 4 ∧ d.drop off = 0x7A :: 4 :: (k ++ d.drop (off + 6)) ∧
        alg &&& 0xF0 = 0x10 ∧ c = [0, 0, 0, 0] ++ k ∧ off' = off + 6) ∨
      ((∀ t, d.drop off ≠ 0x7A :: t) ∧ c = [0, 0, 0, 0, 0, 0, 0, 0] ∧ off' = off) := by
  parse_ok [parseCounter]
  constructor
  · rintro (⟨h0, t, h1, (⟨rfl, h2, l, h3, rfl, h4, h5, k, ⟨h6, h7⟩, h8⟩ | ⟨h2, h3⟩)⟩ | ⟨h0, h1⟩)
    · obtain ⟨rfl, rfl⟩ := Prod.mk.inj h8
      have hk : k.length = 4 := by rw [← h7]; simp; omega
      refine .inl ⟨k, hk, ?_, h4, rfl, rfl⟩
      rw [drop_of_getElem? h1, drop_of_getElem? h3, drop_of_take h7]
    · obtain ⟨rfl, rfl⟩ := Prod.mk.inj h3
      exact .inr ⟨noTag_of_getElem? h1 h2, rfl, rfl⟩
    · obtain ⟨rfl, rfl⟩ := Prod.mk.inj h1
      exact .inr ⟨noTag_of_len (by omega), rfl, rfl⟩
  · rintro (⟨k, hk, h, ha, rfl, rfl⟩ | ⟨h, rfl, ho⟩)
    · have hl := len_of_drop h (by simp)
      simp only [List.length_cons, List.length_append] at hl
      have h' := drop_succ h
      have h'' := drop_succ h'
      refine .inl ⟨by omega, 0x7A, getElem?_of_drop h,
        .inl ⟨rfl, by omega, 4, getElem?_of_drop h', rfl, ha, by omega, k, ⟨by omega, ?_⟩, rfl⟩⟩
      have h3 : d.drop (off + 2) = k ++ d.drop (off + 6) := h''
      rw [h3, ← hk]; simp
    · by_cases hl : off < d.length
      · refine .inl ⟨hl, d[off], by simp, .inr ⟨?_, by rw [ho]⟩⟩
        intro he
        exact h (d.drop (off + 1)) (by rw [← he]; exact List.drop_eq_getElem_cons hl)
      · exact .inr ⟨hl, by rw [ho]⟩

theorem byte_le {a b : Byte} : ¬ a > b ↔ a.toNat ≤ b.toNat := by
  rw [gt_iff_lt, UInt8.lt_iff_toNat_lt]; omega

theorem parsePut_ok (d : Bytes) (r : Rec) : PE.Ok (parsePut d) r ↔ ∃ p c, PutReq d r p c := by
  parse_ok [parsePut]
  constructor
  · rintro ⟨_, t, h0, rfl, nl, h1, ⟨h2, h3⟩, h4, t', h5, rfl, kl, h6, ⟨h7, h8⟩, alg, h9, h10, h11,
      dg, h12, ⟨h13, h14⟩, ⟨prop, o1⟩, h15, ⟨chal, o2⟩, h16, h17, x, ⟨h18, h19⟩, y, ⟨h20, h21⟩, rfl⟩
    rw [parseProp_ok] at h15
    rw [parseCounter_ok] at h16
    simp only at h17 h16
    have hx : x.length = nl.toNat := by rw [← h19]; simp; omega
    have hy : y.length = kl.toNat - 2 := by rw [← h21]; simp; omega
    have hk2 : ¬ kl.toNat ≤ 2 := by
      rw [UInt8.le_iff_toNat_le] at h8; simpa using h8
    have hk66 : kl.toNat ≤ 66 := byte_le.mp h7
    have e0 := drop_of_getElem? h0
    have e1 := drop_of_getElem? h1
    have e2 := drop_of_take h19
    have e3 := drop_of_getElem? h5
    have e4 := drop_of_getElem? h6
    have e5 := drop_of_getElem? h9
    have e6 := drop_of_getElem? h12
    have e7 := drop_of_take h21
    rw [List.drop_zero] at e0
    have hkl : UInt8.ofNat (2 + y.length) = kl := by
      rw [hy, show 2 + (kl.toNat - 2) = kl.toNat by omega]; simp
    have hoff : 2 + nl.toNat + 2 + 2 + (kl.toNat - 2) = 2 + nl.toNat + 2 + kl.toNat := by omega
    rw [hoff] at e7
    -- the optional parts
    have hend : d.drop o2 = [] := List.drop_eq_nil_of_le (by omega)
    have hopt : ∃ p c : Bytes, d.drop (2 + nl.toNat + 2 + kl.toNat) = p ++ c ∧
        ((p = [] ∧ prop = 0) ∨ (p = [0x78, prop] ∧ prop ≤ 3)) ∧
        ((c = [] ∧ chal = [0, 0, 0, 0, 0, 0, 0, 0]) ∨
          (alg &&& 0xF0 = 0x10 ∧ ∃ k : Bytes, k.length = 4 ∧ c = [0x7A, 4] ++ k ∧
            chal = [0, 0, 0, 0] ++ k)) := by
      have hc : ∃ c : Bytes, d.drop o1 = c ∧ ((c = [] ∧ chal = [0, 0, 0, 0, 0, 0, 0, 0]) ∨
          (alg &&& 0xF0 = 0x10 ∧ ∃ k : Bytes, k.length = 4 ∧ c = [0x7A, 4] ++ k ∧
            chal = [0, 0, 0, 0] ++ k)) := by
        rcases h16 with ⟨k, hk, hd, ha, rfl, rfl⟩ | ⟨_, rfl, rfl⟩
        · refine ⟨_, hd, .inr ⟨ha, k, hk, ?_, rfl⟩⟩
          rw [hend]; simp
        · exact ⟨[], hend, .inl ⟨rfl, rfl⟩⟩
      obtain ⟨c, hc1, hc2⟩ := hc
      rcases h15 with ⟨hd, hp, rfl⟩ | ⟨_, rfl, rfl⟩
      · exact ⟨[0x78, prop], c, by rw [hd, hc1]; simp, .inr ⟨rfl, hp⟩, hc2⟩
      · exact ⟨[], c, by rw [hc1]; simp, .inl ⟨rfl, rfl⟩, hc2⟩
    obtain ⟨p, c, hd, hp, hc⟩ := hopt
    refine ⟨p, c, ⟨validOf hx h2 h3, ⟨by simp only; omega, by simp only; omega⟩, ?_, ?_, ⟨?_, ?_⟩, hp, hc, ?_⟩⟩
    · simp only [Hotp, Totp]
      exact Decidable.or_iff_not_not_and_not.mpr h10
    · simp only
      apply Classical.byContradiction
      intro hn
      exact h11 ⟨⟨fun h => hn (.inl h), fun h => hn (.inr (.inl h))⟩, fun h => hn (.inr (.inr h))⟩
    · rw [UInt8.le_iff_toNat_le]; rw [UInt8.lt_iff_toNat_lt] at h13; simp only; omega
    · rw [UInt8.le_iff_toNat_le]; exact byte_le.mp h14
    · simp only [nameTlv, hx, UInt8.ofNat_toNat, hkl]
      refine e0.trans ?_
      rw [e1, e2, e3, e4, e5, e6, e7, hd]
      simp
  · rintro ⟨p, c, hv, ⟨hs1, hs2⟩, ht, ha, ⟨hd1, hd2⟩, hp, hc, hw⟩
    obtain ⟨e, h1, h2⟩ := validLen hv
    have h3 := hv.1
    have hkl := toNat_ofNat_lt (n := 2 + r.secret.length) (by omega)
    have d0 : d.drop 0 = 0x71 :: UInt8.ofNat r.name.length :: (r.name ++ (0x73 ::
        UInt8.ofNat (2 + r.secret.length) :: r.alg :: r.digits :: (r.secret ++ (p ++ c)))) := by
      rw [hw]; simp [nameTlv]
    have d1 := drop_succ d0
    have d2 := drop_succ d1
    have d3 := drop_add d2
    have d4 := drop_succ d3
    have d5 := drop_succ d4
    have d6 := drop_succ d5
    have d7 := drop_succ d6
    have d8 := drop_add d7
    have hl : d.length = 2 + r.name.length + 4 + r.secret.length + p.length + c.length := by
      rw [hw]; simp [nameTlv]; omega
    simp only [Nat.zero_add, Nat.reduceAdd, Nat.add_assoc] at d1 d2 d3 d4 d5 d6 d7 d8
    simp only [Nat.add_assoc, Nat.reduceAdd]
    have hoff : 2 + (r.name.length + (4 + r.secret.length))
        = 2 + (r.name.length + (2 + (2 + r.secret.length))) := by omega
    rw [hoff] at d8
    generalize hO : 2 + (r.name.length + (2 + (2 + r.secret.length))) = O at d8
    have hcnt : ∀ o, d.drop o = c → d.length = o + c.length →
        PE.Ok (parseCounter d r.alg o) (r.chal, d.length) := by
      intro o ho hlo
      rw [parseCounter_ok]
      rcases hc with ⟨rfl, hch⟩ | ⟨hh, k, hk, rfl, hch⟩
      · exact .inr ⟨by rw [ho]; simp, hch, by simpa using hlo⟩
      · have hl6 : d.length = o + 6 := by simp at hlo; omega
        refine .inl ⟨k, hk, ?_, hh, hch, hl6⟩
        rw [ho, List.drop_eq_nil_of_le (by omega)]
        simp
    have hopt : ∃ o1, PE.Ok (parseProp d O) (r.prop, o1) ∧ PE.Ok (parseCounter d r.alg o1) (r.chal, d.length) := by
      rcases hp with ⟨rfl, hp0⟩ | ⟨rfl, hp3⟩
      · refine ⟨O, ?_, hcnt O (by simpa using d8) (by simp at hl; omega)⟩
        rw [parseProp_ok]
        refine .inr ⟨?_, hp0, rfl⟩
        intro t hh
        rw [d8] at hh
        rcases hc with ⟨rfl, _⟩ | ⟨_, k, _, rfl, _⟩
        · simp at hh
        · simp at hh
      · have e2 : d.drop (O + 2) = c := by
          have := drop_add d8
          simpa using this
        refine ⟨O + 2, ?_, hcnt (O + 2) e2 (by simp at hl; omega)⟩
        rw [parseProp_ok]
        exact .inl ⟨by rw [d8, e2]; simp, hp3, rfl⟩
    obtain ⟨o1, ho1, ho2⟩ := hopt
    refine ⟨by omega, 0x71, getElem?_of_drop d0, rfl, _, getElem?_of_drop d1, ⟨h1, h2⟩, ?_, 0x73, ?_, rfl,
      UInt8.ofNat (2 + r.secret.length), ?_, ⟨?_, ?_⟩, r.alg, ?_, ?_, ?_, r.digits, ?_, ⟨?_, ?_⟩,
      (r.prop, o1), ?_, (r.chal, d.length), ho2, rfl, r.name, ⟨?_, ?_⟩, r.secret, ⟨?_, ?_⟩, rfl⟩
    · rw [e]; omega
    · rw [e]; exact getElem?_of_drop d3
    · rw [e]; exact getElem?_of_drop d4
    · rw [byte_le, hkl]; simp; omega
    · rw [UInt8.le_iff_toNat_le, hkl]; simp; omega
    · rw [e]; exact getElem?_of_drop d5
    · rintro ⟨ha1, ha2⟩; exact ht.elim ha1 ha2
    · rintro ⟨⟨ha1, ha2⟩, ha3⟩
      rcases ha with h | h | h
      · exact ha1 h
      · exact ha2 h
      · exact ha3 h
    · rw [e]; exact getElem?_of_drop d6
    · rw [UInt8.lt_iff_toNat_lt]; rw [UInt8.le_iff_toNat_le] at hd1; omega
    · rw [byte_le]; rw [UInt8.le_iff_toNat_le] at hd2; exact hd2
    · rw [e, hkl, hO]; exact ho1
    · rw [e]; omega
    · rw [e, d2]; simp
    · rw [e, hkl]; omega
    · rw [e, hkl, d7]; simp

/-- VALIDATE accepts exactly its wire format. -/
theorem parseValidate_ok (d resp chal : Bytes) :
    PE.Ok (parseValidate d) (resp, chal) ↔ ValidateReq d resp chal := by
  parse_ok [parseValidate]
  constructor
  · rintro ⟨_, t, h0, rfl, rl, h1, rfl, h4, t', h5, rfl, cl, h6, h9, x, ⟨h10, h11⟩, y, ⟨h12, h13⟩, h14⟩
    obtain ⟨rfl, rfl⟩ := Prod.mk.inj h14
    simp only [UInt8.reduceToNat, Nat.reduceAdd] at *
    have hx : x.length = 20 := by rw [← h11]; simp; omega
    have hy : y.length = cl.toNat := by rw [← h13]; simp; omega
    have hcl := cl.toNat_lt
    refine ⟨hx, by omega, by omega, ?_⟩
    have e0 := drop_of_getElem? h0
    have e1 := drop_of_getElem? h1
    have e2 := drop_of_take h11
    have e3 := drop_of_getElem? h5
    have e4 := drop_of_getElem? h6
    have e5 := drop_of_take h13
    rw [List.drop_zero] at e0
    simp only [Nat.zero_add, Nat.reduceAdd] at e0 e1 e2 e3 e4 e5
    refine e0.trans ?_
    rw [e1, e2, e3, e4, e5, List.drop_eq_nil_of_le (by omega)]
    simp [chalTlv, hy]
  · rintro ⟨hr, hc1, hc2, hw⟩
    have e := toNat_ofNat_lt (n := chal.length) (by omega)
    have d0 : d.drop 0 = 0x75 :: 20 :: (resp ++ (0x74 :: UInt8.ofNat chal.length :: (chal ++ []))) := by
      rw [hw]; simp [chalTlv]
    have d1 := drop_succ d0
    have d2 := drop_succ d1
    have d3 := drop_add d2
    have d4 := drop_succ d3
    have d5 := drop_succ d4
    have hl : d.length = 24 + chal.length := by rw [hw]; simp [chalTlv, hr]; omega
    simp only [hr, Nat.zero_add, Nat.reduceAdd, Nat.add_assoc] at d1 d2 d3 d4 d5
    simp only [UInt8.reduceToNat, Nat.reduceAdd]
    refine ⟨by omega, 0x75, getElem?_of_drop d0, rfl, 20, getElem?_of_drop d1, rfl, ?_, 0x74, ?_, rfl,
      UInt8.ofNat chal.length, ?_, ?_, resp, ⟨?_, ?_⟩, chal, ⟨?_, ?_⟩, rfl⟩
    · simp only [UInt8.reduceToNat]; omega
    · exact getElem?_of_drop d3
    · exact getElem?_of_drop d4
    · rw [e]; exact hl
    · omega
    · rw [d2, ← hr]; simp
    · rw [e]; simp only [UInt8.reduceToNat]; omega
    · rw [e]; show List.take _ (List.drop 24 d) = _; rw [d5]; simp

end Verif.Oath
