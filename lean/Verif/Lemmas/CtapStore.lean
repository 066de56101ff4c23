import Verif.Lemmas.CtapUse
/-
Invariants of the credential store of the FIDO applet, on lists of records and of relying-party entries.
-/
namespace Verif.Ctap
open Cmd

variable {α β : Type}

/-! ### Loops -/

theorem getElem?_setAt {l : List α} {p : Nat} {a : α} (hp : p ≤ l.length) (q : Nat) :
    (setAt l p a)[q]? = if q = p then some a else l[q]? := by
  unfold setAt
  by_cases h : p < l.length
  · rw [if_pos h, List.getElem?_set]
    by_cases hq : q = p
    · subst hq
      rw [if_pos rfl, if_pos rfl, if_pos h]
    · rw [if_neg (fun h => hq h.symm), if_neg hq]
  · rw [if_neg h]
    have hpl : p = l.length := by omega
    by_cases hq : q = p
    · rw [if_pos hq, hq, hpl, List.getElem?_append_right (Nat.le_refl _)]
      simp
    · rw [if_neg hq, List.getElem?_append]
      by_cases hlt : q < l.length
      · rw [if_pos hlt]
      · rw [if_neg hlt, List.getElem?_eq_none (by simp; omega), List.getElem?_eq_none (by omega)]

theorem length_setAt {l : List α} {p : Nat} {a : α} (hp : p ≤ l.length) (n : Nat) (hn : p < n) (hl : l.length ≤ n) :
    (setAt l p a).length ≤ n := by
  unfold setAt
  split
  · rw [List.length_set]; exact hl
  · rw [List.length_append]; simp; omega

/-- A search for the first element with a property. -/
theorem foldUp_first (P : β → Bool) (body : Nat → β → Option β → Option β × Bool)
    (hb : ∀ n b s, body n b s = if P b then (some b, true) else (none, false)) (l : List β) :
    ∀ i : Nat, (∃ (k : Nat) (b : β), foldUp body l i none = (some b, i + k) ∧ l[k]? = some b ∧ P b = true ∧
        ∀ (k' : Nat) (b' : β), k' < k → l[k']? = some b' → P b' = false) ∨
      (foldUp body l i none = (none, i + l.length) ∧ ∀ (k : Nat) (b : β), l[k]? = some b → P b = false) := by
  induction l with
  | nil => intro i; exact Or.inr ⟨rfl, fun k b h => by simp at h⟩
  | cons b l ih =>
    intro i
    unfold foldUp
    rw [hb]
    by_cases hp : P b = true
    · rw [if_pos hp]
      exact Or.inl ⟨0, b, rfl, rfl, hp, fun k' _ h => absurd h (Nat.not_lt_zero _)⟩
    · have hp' : P b = false := by simpa using hp
      rw [if_neg hp]
      rcases ih (i + 1) with ⟨k, c, h1, h2, h3, h4⟩ | ⟨h1, h2⟩
      · refine Or.inl ⟨k + 1, c, ?_, ?_, h3, ?_⟩
        · show foldUp body l (i + 1) none = _
          rw [h1]
          congr 1
          omega
        · simpa using h2
        · intro k' b' hk hb'
          cases k' with
          | zero =>
            simp at hb'
            subst hb'
            exact hp'
          | succ k' => exact h4 k' b' (by omega) (by simpa using hb')
      · refine Or.inr ⟨?_, ?_⟩
        · show foldUp body l (i + 1) none = _
          rw [h1, List.length_cons]
          congr 1
          omega
        · intro k b' hb'
          cases k with
          | zero =>
            simp at hb'
            subst hb'
            exact hp'
          | succ k => exact h2 k b' (by simpa using hb')

/-- The slot for a new credential: one that holds a credential of the same relying party and user, or a
deleted one, or the end. -/
theorem foldUp_slot (rp uid : Bytes) (l : List Dc) : ∀ (i : Nat) (fd : Option Nat),
    (∃ (k : Nat) (d : Dc), foldUp (slotBody rp uid) l i fd = ((foldUp (slotBody rp uid) l i fd).1, i + k) ∧ k < l.length ∧ l[k]? = some d ∧
      d.deleted = false ∧ Cid.rp d.cid = rp ∧ d.user.id = uid) ∨
    ((foldUp (slotBody rp uid) l i fd).2 = i + l.length ∧
      (∀ p, (foldUp (slotBody rp uid) l i fd).1 = some p → fd = some p ∨ (∃ (k : Nat) (d : Dc), p = i + k ∧ l[k]? = some d ∧ d.deleted = true))) := by
  induction l with
  | nil => intro i fd; exact Or.inr ⟨rfl, fun p h => Or.inl h⟩
  | cons b l ih =>
    intro i fd
    unfold foldUp slotBody
    by_cases hd : b.deleted = true
    · rw [if_pos hd]
      show (∃ k d, foldUp (slotBody rp uid) l (i + 1) (some (fd.getD i)) = ((foldUp (slotBody rp uid) l (i + 1) (some (fd.getD i))).1, i + k) ∧ _) ∨
        ((foldUp (slotBody rp uid) l (i + 1) (some (fd.getD i))).2 = _ ∧ _)
      rcases ih (i + 1) (some (fd.getD i)) with ⟨k, d, h1, h2, h3, h4⟩ | ⟨h1, h2⟩
      · refine Or.inl ⟨k + 1, d, ?_, by simp; omega, by simpa using h3, h4⟩
        rw [h1]
        congr 1
        omega
      · refine Or.inr ⟨by rw [h1, List.length_cons]; omega, fun p hp => ?_⟩
        rcases h2 p hp with h | ⟨k, d, h5, h6, h7⟩
        · cases fd with
          | none =>
            cases h
            exact Or.inr ⟨0, b, rfl, rfl, hd⟩
          | some q =>
            cases h
            exact Or.inl rfl
        · exact Or.inr ⟨k + 1, d, by omega, by simpa using h6, h7⟩
    · have hd' : b.deleted = false := by simpa using hd
      rw [if_neg hd]
      cases hm : (rp == Cid.rp b.cid && uid == b.user.id) with
      | true =>
        simp only [Bool.and_eq_true, beq_iff_eq] at hm
        exact Or.inl ⟨0, b, rfl, by simp, rfl, hd', hm.1.symm, hm.2.symm⟩
      | false =>
        show (∃ k d, foldUp (slotBody rp uid) l (i + 1) fd = ((foldUp (slotBody rp uid) l (i + 1) fd).1, i + k) ∧ _) ∨
          ((foldUp (slotBody rp uid) l (i + 1) fd).2 = _ ∧ _)
        rcases ih (i + 1) fd with ⟨k, d, h1, h2, h3, h4⟩ | ⟨h1, h2⟩
        · refine Or.inl ⟨k + 1, d, ?_, by simp; omega, by simpa using h3, h4⟩
          rw [h1]
          congr 1
          omega
        · refine Or.inr ⟨by rw [h1, List.length_cons]; omega, fun p hp => ?_⟩
          rcases h2 p hp with h | ⟨k, d, h5, h6, h7⟩
          · exact Or.inl h
          · exact Or.inr ⟨k + 1, d, by omega, by simpa using h6, h7⟩

/-- The relying-party entry for a new credential: the one in use for that relying party, or else the first that
is not in use, or the end. -/
theorem foldUp_meta (rp : Bytes) (l : List Meta) : ∀ (i : Nat) (fm : Option Nat),
    (∃ (k : Nat) (m : Meta) (fm' : Option Nat), foldUp (metaBody rp) l i (fm, none) = ((fm', some m), i + k) ∧ l[k]? = some m ∧ m.slots ≠ 0#64 ∧ m.hash = rp) ∨
    (∃ fm' : Option Nat, foldUp (metaBody rp) l i (fm, none) = ((fm', none), i + l.length) ∧
      (∀ (k : Nat) (m : Meta), l[k]? = some m → m.slots ≠ 0#64 → m.hash ≠ rp) ∧
      (fm.isSome = true → fm' = fm) ∧
      (fm = none → (fm' = none ∧ ∀ (k : Nat) (m : Meta), l[k]? = some m → m.slots ≠ 0#64) ∨
        ∃ (k : Nat) (m : Meta), fm' = some (i + k) ∧ l[k]? = some m ∧ m.slots = 0#64 ∧ ∀ (k' : Nat) (m' : Meta), k' < k → l[k']? = some m' → m'.slots ≠ 0#64)) := by
  induction l with
  | nil =>
    intro i fm
    exact Or.inr ⟨fm, rfl, fun k b h => by simp at h, fun _ => rfl, fun h => Or.inl ⟨h, fun k b h => by simp at h⟩⟩
  | cons b l ih =>
    intro i fm
    unfold foldUp metaBody
    by_cases h0 : b.slots = 0#64
    · rw [if_pos (by simpa using h0)]
      show (∃ k m fm', foldUp (metaBody rp) l (i + 1) (some (fm.getD i), none) = ((fm', some m), i + k) ∧ _) ∨
        (∃ fm', foldUp (metaBody rp) l (i + 1) (some (fm.getD i), none) = ((fm', none), i + (b :: l).length) ∧ _)
      rcases ih (i + 1) (some (fm.getD i)) with ⟨k, m, fm', h1, h2, h3⟩ | ⟨fm', h1, h2, h3, h4⟩
      · refine Or.inl ⟨k + 1, m, fm', ?_, by simpa using h2, h3⟩
        rw [h1]
        congr 1
        omega
      · have hfm := h3 rfl
        refine Or.inr ⟨fm', ?_, ?_, ?_, ?_⟩
        · rw [h1, List.length_cons]
          congr 1
          omega
        · intro k m hk hs
          cases k with
          | zero =>
            simp at hk
            subst hk
            exact absurd h0 hs
          | succ k => exact h2 k m (by simpa using hk) hs
        · intro hs
          rw [hfm]
          cases fm with
          | none => cases hs
          | some _ => rfl
        · intro hn
          subst hn
          exact Or.inr ⟨0, b, hfm, rfl, h0, fun k' _ h => absurd h (Nat.not_lt_zero _)⟩
    · rw [if_neg (by simpa using h0)]
      by_cases hh : b.hash = rp
      · rw [if_pos (by simpa using hh.symm)]
        exact Or.inl ⟨0, b, fm, rfl, rfl, h0, hh⟩
      · rw [if_neg (by simpa using fun h => hh h.symm)]
        show (∃ k m fm', foldUp (metaBody rp) l (i + 1) (fm, none) = ((fm', some m), i + k) ∧ _) ∨
          (∃ fm', foldUp (metaBody rp) l (i + 1) (fm, none) = ((fm', none), i + (b :: l).length) ∧ _)
        rcases ih (i + 1) fm with ⟨k, m, fm', h1, h2, h3⟩ | ⟨fm', h1, h2, h3, h4⟩
        · refine Or.inl ⟨k + 1, m, fm', ?_, by simpa using h2, h3⟩
          rw [h1]
          congr 1
          omega
        · refine Or.inr ⟨fm', ?_, ?_, h3, ?_⟩
          · rw [h1, List.length_cons]
            congr 1
            omega
          · intro k m hk hs
            cases k with
            | zero =>
              simp at hk
              subst hk
              exact hh
            | succ k => exact h2 k m (by simpa using hk) hs
          · intro hn
            rcases h4 hn with ⟨h5, h6⟩ | ⟨k, m, h5, h6, h7, h8⟩
            · refine Or.inl ⟨h5, fun k m hk => ?_⟩
              cases k with
              | zero =>
                simp at hk
                subst hk
                exact h0
              | succ k => exact h6 k m (by simpa using hk)
            · refine Or.inr ⟨k + 1, m, by rw [h5]; congr 1; omega, by simpa using h6, h7, fun k' m' hk hm => ?_⟩
              cases k' with
              | zero =>
                simp at hm
                subst hm
                exact h0
              | succ k' => exact h8 k' m' (by omega) (by simpa using hm)

/-! ### The invariant -/

/-- Slot `p` holds a credential. -/
def LiveAt (recs : List Dc) (p : Nat) (d : Dc) : Prop := recs[p]? = some d ∧ d.deleted = false

/-- Slot `p` and the relying-party entries agree. -/
structure Fits (recs : List Dc) (ms : List Meta) (p : Nat) : Prop where
  forth : ∀ d, LiveAt recs p d → ∃ (j : Nat) (m : Meta), ms[j]? = some m ∧ m.slots.getLsbD p = true ∧ m.hash = Cid.rp d.cid
  back : ∀ (j : Nat) (m : Meta), ms[j]? = some m → m.slots.getLsbD p = true → ∃ d, LiveAt recs p d ∧ m.hash = Cid.rp d.cid

/-- The store is in order, except perhaps for the slot for which an update is pending. -/
structure Inv (recs : List Dc) (ms : List Meta) (pend : Option Nat) : Prop where
  len : recs.length ≤ 64
  uniq : ∀ (i j : Nat) (m m' : Meta), i < j → ms[i]? = some m → ms[j]? = some m' → m'.slots ≠ 0#64 → m.hash ≠ m'.hash
  once : ∀ (i j : Nat) (m m' : Meta) (p : Nat), ms[i]? = some m → ms[j]? = some m' → m.slots.getLsbD p = true → m'.slots.getLsbD p = true → i = j
  fits : ∀ p, pend ≠ some p → Fits recs ms p
  idx : ∀ p, pend = some p → p < 64

theorem ne_zero_of_bit {b : BitVec 64} {p : Nat} (h : b.getLsbD p = true) : b ≠ 0#64 := by
  rintro rfl
  simp at h

/-- Two entries in use are for different relying parties. -/
theorem Inv.diff {recs : List Dc} {ms : List Meta} {pend : Option Nat} (h : Inv recs ms pend) {i j : Nat} {m m' : Meta}
    (hi : ms[i]? = some m) (hj : ms[j]? = some m') (h1 : m.slots ≠ 0#64) (h2 : m'.slots ≠ 0#64) (he : m.hash = m'.hash) : i = j := by
  rcases Nat.lt_trichotomy i j with hlt | heq | hgt
  · exact absurd he (h.uniq i j m m' hlt hi hj h2)
  · exact heq
  · exact absurd he.symm (h.uniq j i m' m hgt hj hi h1)

theorem Inv.begin {recs : List Dc} {ms : List Meta} (h : Inv recs ms none) {p : Nat} (hp : p < 64) : Inv recs ms (some p) :=
  ⟨h.len, h.uniq, h.once, fun q _ => h.fits q nofun, fun _ e => by cases e; exact hp⟩

theorem Inv.finish {recs : List Dc} {ms : List Meta} {p : Nat} (h : Inv recs ms (some p)) (hf : Fits recs ms p) : Inv recs ms none :=
  ⟨h.len, h.uniq, h.once, fun q _ => by
    by_cases hq : q = p
    · subst hq; exact hf
    · exact h.fits q (fun e => hq (Option.some.inj e).symm), nofun⟩

theorem fits_congr {recs recs' : List Dc} {ms : List Meta} {p : Nat} (e : recs'[p]? = recs[p]?) (h : Fits recs ms p) : Fits recs' ms p :=
  ⟨fun d hd => h.forth d ⟨e.symm.trans hd.1, hd.2⟩, fun j m hj hb => by
    obtain ⟨d, hd, hh⟩ := h.back j m hj hb
    exact ⟨d, ⟨e.trans hd.1, hd.2⟩, hh⟩⟩

/-- Writing the record for which an update is pending. -/
theorem Inv.record {recs : List Dc} {ms : List Meta} {p : Nat} (h : Inv recs ms (some p)) (d : Dc) (hp : p ≤ recs.length) :
    Inv (setAt recs p d) ms (some p) := by
  refine ⟨length_setAt hp 64 (h.idx p rfl) h.len, h.uniq, h.once, fun q hq => ?_, h.idx⟩
  refine fits_congr ?_ (h.fits q hq)
  rw [getElem?_setAt hp, if_neg (fun e => hq (by rw [e]))]

/-- Writing a record that only differs in the user. -/
theorem Inv.user {recs : List Dc} {ms : List Meta} {p : Nat} {d d' : Dc} (h : Inv recs ms none) (hd : LiveAt recs p d)
    (h1 : d'.cid = d.cid) (h2 : d'.deleted = false) : Inv (setAt recs p d') ms none := by
  have hp : p < recs.length := by
    have := hd.1
    rw [List.getElem?_eq_some_iff] at this
    exact this.1
  refine ⟨length_setAt (by omega) 64 (by have := h.len; omega) h.len, h.uniq, h.once, fun q hq => ?_, nofun⟩
  have hf := h.fits q hq
  by_cases hqp : q = p
  · subst hqp
    have e : (setAt recs q d')[q]? = some d' := by rw [getElem?_setAt (by omega), if_pos rfl]
    refine ⟨fun c hc => ?_, fun j m hj hb => ?_⟩
    · have : c = d' := Option.some.inj (hc.1.symm.trans e)
      subst this
      obtain ⟨j, m, a, b, c'⟩ := hf.forth d hd
      exact ⟨j, m, a, b, by rw [c', h1]⟩
    · obtain ⟨c, hc, hh⟩ := hf.back j m hj hb
      have : c = d := Option.some.inj (hc.1.symm.trans hd.1)
      subst this
      exact ⟨d', ⟨e, h2⟩, by rw [hh, h1]⟩
  · refine fits_congr ?_ hf
    rw [getElem?_setAt (by omega), if_neg hqp]

theorem getLsbD_or_two (b : BitVec 64) {p : Nat} (hp : p < 64) (q : Nat) :
    (b ||| BitVec.twoPow 64 p).getLsbD q = (b.getLsbD q || decide (q = p)) := by
  rw [BitVec.getLsbD_or, BitVec.getLsbD_twoPow]
  by_cases hq : q = p
  · simp [hq, hp]
  · simp [hq, Ne.symm hq]

theorem getLsbD_clear (b : BitVec 64) (p q : Nat) :
    (b &&& ~~~(BitVec.twoPow 64 p)).getLsbD q = (b.getLsbD q && decide (q ≠ p)) := by
  rw [BitVec.getLsbD_and, BitVec.getLsbD_not, BitVec.getLsbD_twoPow]
  by_cases hq : q < 64
  · by_cases hqp : q = p
    · subst hqp; simp [hq]
    · simp [hq, hqp, Ne.symm hqp]
  · have : b.getLsbD q = false := BitVec.getLsbD_of_ge _ _ (by omega)
    simp [this]

/-- Clearing the bit of a slot in the only entry that has it. -/
theorem Inv.clear {recs : List Dc} {ms : List Meta} {p j : Nat} {m : Meta} (h : Inv recs ms (some p)) (hj : ms[j]? = some m) :
    Inv recs (setAt ms j { m with slots := m.slots &&& ~~~(BitVec.twoPow 64 p) }) (some p) := by
  have hjl : j < ms.length := by
    rw [List.getElem?_eq_some_iff] at hj
    exact hj.1
  have key : ∀ (k : Nat) (c : Meta), (setAt ms j { m with slots := m.slots &&& ~~~(BitVec.twoPow 64 p) })[k]? = some c →
      ∃ c', ms[k]? = some c' ∧ c.hash = c'.hash ∧ (∀ q, c.slots.getLsbD q = true → c'.slots.getLsbD q = true) ∧
        (c.slots ≠ 0#64 → c'.slots ≠ 0#64) := by
    intro k c hk
    rw [getElem?_setAt (by omega)] at hk
    by_cases hkj : k = j
    · rw [if_pos hkj] at hk
      cases hk
      refine ⟨m, by rw [hkj]; exact hj, rfl, fun q hq => ?_, fun hs hz => hs ?_⟩
      · rw [getLsbD_clear] at hq
        simp at hq
        exact hq.1
      · rw [hz]
        simp
    · rw [if_neg hkj] at hk
      exact ⟨c, hk, rfl, fun _ h => h, id⟩
  refine ⟨h.len, ?_, ?_, ?_, h.idx⟩
  · intro a b c d hab ha hb hd
    obtain ⟨c', h1, h2, _, _⟩ := key a c ha
    obtain ⟨d', h3, h4, _, h5⟩ := key b d hb
    rw [h2, h4]
    exact h.uniq a b c' d' hab h1 h3 (h5 hd)
  · intro a b c d q ha hb hc hd
    obtain ⟨c', h1, _, h2, _⟩ := key a c ha
    obtain ⟨d', h3, _, h4, _⟩ := key b d hb
    exact h.once a b c' d' q h1 h3 (h2 q hc) (h4 q hd)
  · intro q hq
    have hf := h.fits q hq
    have hqp : q ≠ p := fun e => hq (by rw [e])
    refine ⟨fun d hd => ?_, fun k c hk hb => ?_⟩
    · obtain ⟨k, c, h1, h2, h3⟩ := hf.forth d hd
      by_cases hkj : k = j
      · subst hkj
        rw [hj] at h1
        cases h1
        refine ⟨k, { m with slots := m.slots &&& ~~~(BitVec.twoPow 64 p) }, by rw [getElem?_setAt (by omega), if_pos rfl], ?_, h3⟩
        rw [getLsbD_clear, h2]
        simp [hqp]
      · exact ⟨k, c, by rw [getElem?_setAt (by omega), if_neg hkj]; exact h1, h2, h3⟩
    · obtain ⟨c', h1, h2, h3, _⟩ := key k c hk
      obtain ⟨d, hd, he⟩ := hf.back k c' h1 (h3 q hb)
      exact ⟨d, hd, h2.trans he⟩

/-- A slot without credential, without bit. -/
theorem fits_none {recs : List Dc} {ms : List Meta} {p : Nat} (h1 : ∀ d, ¬ LiveAt recs p d)
    (h2 : ∀ (j : Nat) (m : Meta), ms[j]? = some m → m.slots.getLsbD p = false) : Fits recs ms p :=
  ⟨fun d hd => absurd hd (h1 d), fun j m hj hb => by rw [h2 j m hj] at hb; cases hb⟩

/-- After clearing, no entry has the bit. -/
theorem Inv.cleared {recs : List Dc} {ms : List Meta} {p j : Nat} {m : Meta} (h : Inv recs ms (some p)) (hj : ms[j]? = some m)
    (hb : m.slots.getLsbD p = true) (k : Nat) (c : Meta)
    (hk : (setAt ms j { m with slots := m.slots &&& ~~~(BitVec.twoPow 64 p) })[k]? = some c) : c.slots.getLsbD p = false := by
  have hjl : j < ms.length := by
    rw [List.getElem?_eq_some_iff] at hj
    exact hj.1
  rw [getElem?_setAt (by omega)] at hk
  by_cases hkj : k = j
  · rw [if_pos hkj] at hk
    cases hk
    rw [getLsbD_clear]
    simp
  · rw [if_neg hkj] at hk
    cases hc : c.slots.getLsbD p with
    | false => rfl
    | true => exact absurd (h.once k j c m p hk hj hc hb) hkj

/-- Adding the bit of the pending slot to the entry in use for the relying party. -/
theorem Inv.addTo {recs : List Dc} {ms : List Meta} {p j : Nat} {m : Meta} {d : Dc} {rpId : Bytes} (h : Inv recs ms (some p))
    (hk : ∀ (k : Nat) (c : Meta), ms[k]? = some c → c.slots.getLsbD p = true → c.hash = Cid.rp d.cid) (hd : LiveAt recs p d)
    (hj : ms[j]? = some m) (hs : m.slots ≠ 0#64) (hh : m.hash = Cid.rp d.cid) :
    Inv recs (setAt ms j ⟨Cid.rp d.cid, rpId, m.slots ||| BitVec.twoPow 64 p⟩) (some p) ∧
    Fits recs (setAt ms j ⟨Cid.rp d.cid, rpId, m.slots ||| BitVec.twoPow 64 p⟩) p := by
  have hp : p < 64 := h.idx p rfl
  have hjl : j < ms.length := by
    rw [List.getElem?_eq_some_iff] at hj
    exact hj.1
  have key : ∀ (k : Nat) (c : Meta), (setAt ms j ⟨Cid.rp d.cid, rpId, m.slots ||| BitVec.twoPow 64 p⟩)[k]? = some c →
      ∃ c', ms[k]? = some c' ∧ c.hash = c'.hash ∧ (∀ q, c.slots.getLsbD q = true → c'.slots.getLsbD q = true ∨ (q = p ∧ k = j)) ∧
        (c.slots ≠ 0#64 → c'.slots ≠ 0#64) := by
    intro k c hk
    rw [getElem?_setAt (by omega)] at hk
    by_cases hkj : k = j
    · rw [if_pos hkj] at hk
      cases hk
      refine ⟨m, by rw [hkj]; exact hj, hh.symm, fun q hq => ?_, fun _ => hs⟩
      rw [getLsbD_or_two _ hp] at hq
      simp at hq
      rcases hq with hq | hq
      · exact Or.inl hq
      · exact Or.inr ⟨hq, hkj⟩
    · rw [if_neg hkj] at hk
      exact ⟨c, hk, rfl, fun _ h => Or.inl h, id⟩
  have only : ∀ (k : Nat) (c : Meta), ms[k]? = some c → c.slots.getLsbD p = true → k = j := fun k c h1 h2 =>
    h.diff h1 hj (ne_zero_of_bit h2) hs ((hk k c h1 h2).trans hh.symm)
  refine ⟨⟨h.len, ?_, ?_, ?_, h.idx⟩, ?_, ?_⟩
  · intro a b c e hab ha hb hd
    obtain ⟨c', h1, h2, _, _⟩ := key a c ha
    obtain ⟨d', h3, h4, _, h5⟩ := key b e hb
    rw [h2, h4]
    exact h.uniq a b c' d' hab h1 h3 (h5 hd)
  · intro a b c e q ha hb hc hd
    obtain ⟨c', h1, _, h2, _⟩ := key a c ha
    obtain ⟨d', h3, _, h4, _⟩ := key b e hb
    rcases h2 q hc with h5 | ⟨h5, h6⟩ <;> rcases h4 q hd with h7 | ⟨h7, h8⟩
    · exact h.once a b c' d' q h1 h3 h5 h7
    · rw [h7] at h5
      exact (only a c' h1 h5).trans h8.symm
    · rw [h5] at h7
      exact h6.trans (only b d' h3 h7).symm
    · exact h6.trans h8.symm
  · intro q hq
    have hf := h.fits q hq
    have hqp : q ≠ p := fun e => hq (by rw [e])
    refine ⟨fun e he => ?_, fun k c hk hb => ?_⟩
    · obtain ⟨k, c, h1, h2, h3⟩ := hf.forth e he
      by_cases hkj : k = j
      · subst hkj
        rw [hj] at h1
        cases h1
        refine ⟨k, _, by rw [getElem?_setAt (by omega), if_pos rfl], ?_, hh.symm.trans h3⟩
        rw [getLsbD_or_two _ hp, h2]
        rfl
      · exact ⟨k, c, by rw [getElem?_setAt (by omega), if_neg hkj]; exact h1, h2, h3⟩
    · obtain ⟨c', h1, h2, h3, _⟩ := key k c hk
      rcases h3 q hb with h4 | ⟨h4, _⟩
      · obtain ⟨e, he, hx⟩ := hf.back k c' h1 h4
        exact ⟨e, he, h2.trans hx⟩
      · exact absurd h4 hqp
  · intro e he
    have : e = d := Option.some.inj (he.1.symm.trans hd.1)
    subst this
    refine ⟨j, _, by rw [getElem?_setAt (by omega), if_pos rfl], ?_, rfl⟩
    rw [getLsbD_or_two _ hp]
    simp
  · intro k c hk' hb
    obtain ⟨c', h1, h2, h3, _⟩ := key k c hk'
    refine ⟨d, hd, h2.trans ?_⟩
    rcases h3 p hb with h4 | ⟨_, h4⟩
    · exact hk k c' h1 h4
    · subst h4
      rw [hj] at h1
      cases h1
      exact hh

/-- Putting the bit of the pending slot into an entry of its own. -/
theorem Inv.addNew {recs : List Dc} {ms : List Meta} {p j : Nat} {d : Dc} {rpId : Bytes} (h : Inv recs ms (some p))
    (hk : ∀ (k : Nat) (c : Meta), ms[k]? = some c → c.slots.getLsbD p = true → c.hash = Cid.rp d.cid) (hd : LiveAt recs p d)
    (hno : ∀ (k : Nat) (c : Meta), ms[k]? = some c → c.slots ≠ 0#64 → c.hash ≠ Cid.rp d.cid)
    (hj : j ≤ ms.length) (hz : ∀ m, ms[j]? = some m → m.slots = 0#64) (hlow : ∀ (k : Nat) (m : Meta), k < j → ms[k]? = some m → m.slots ≠ 0#64) :
    Inv recs (setAt ms j ⟨Cid.rp d.cid, rpId, 0#64 ||| BitVec.twoPow 64 p⟩) (some p) ∧
    Fits recs (setAt ms j ⟨Cid.rp d.cid, rpId, 0#64 ||| BitVec.twoPow 64 p⟩) p := by
  have hp : p < 64 := h.idx p rfl
  have nobit : ∀ (k : Nat) (c : Meta), ms[k]? = some c → c.slots.getLsbD p = false := fun k c hc => by
    cases hb : c.slots.getLsbD p with
    | false => rfl
    | true => exact absurd (hk k c hc hb) (hno k c hc (ne_zero_of_bit hb))
  have bits : ∀ q, (0#64 ||| BitVec.twoPow 64 p).getLsbD q = decide (q = p) := fun q => by
    rw [getLsbD_or_two _ hp]
    simp
  refine ⟨⟨h.len, ?_, ?_, ?_, h.idx⟩, ?_, ?_⟩
  · intro a b c e hab ha hb he
    rw [getElem?_setAt hj] at ha hb
    by_cases haj : a = j
    · rw [if_pos haj] at ha
      cases ha
      rw [if_neg (by omega)] at hb
      exact (hno b e hb he).symm
    · rw [if_neg haj] at ha
      by_cases hbj : b = j
      · rw [if_pos hbj] at hb
        cases hb
        exact hno a c ha (hlow a c (by omega) ha)
      · rw [if_neg hbj] at hb
        exact h.uniq a b c e hab ha hb he
  · intro a b c e q ha hb hc he
    rw [getElem?_setAt hj] at ha hb
    by_cases haj : a = j
    · rw [if_pos haj] at ha
      cases ha
      rw [bits] at hc
      simp at hc
      by_cases hbj : b = j
      · exact haj.trans hbj.symm
      · rw [if_neg hbj] at hb
        rw [hc, nobit b e hb] at he
        cases he
    · rw [if_neg haj] at ha
      by_cases hbj : b = j
      · rw [if_pos hbj] at hb
        cases hb
        rw [bits] at he
        simp at he
        rw [he, nobit a c ha] at hc
        cases hc
      · rw [if_neg hbj] at hb
        exact h.once a b c e q ha hb hc he
  · intro q hq
    have hf := h.fits q hq
    have hqp : q ≠ p := fun e => hq (by rw [e])
    refine ⟨fun e he => ?_, fun k c hk hb => ?_⟩
    · obtain ⟨k, c, h1, h2, h3⟩ := hf.forth e he
      refine ⟨k, c, ?_, h2, h3⟩
      rw [getElem?_setAt hj, if_neg]
      · exact h1
      · intro hkj
        subst hkj
        rw [hz c h1] at h2
        simp at h2
    · rw [getElem?_setAt hj] at hk
      by_cases hkj : k = j
      · rw [if_pos hkj] at hk
        cases hk
        rw [bits] at hb
        simp at hb
        exact absurd hb hqp
      · rw [if_neg hkj] at hk
        exact hf.back k c hk hb
  · intro e he
    have : e = d := Option.some.inj (he.1.symm.trans hd.1)
    subst this
    refine ⟨j, _, by rw [getElem?_setAt hj, if_pos rfl], ?_, rfl⟩
    rw [bits]
    simp
  · intro k c hk' hb
    rw [getElem?_setAt hj] at hk'
    by_cases hkj : k = j
    · rw [if_pos hkj] at hk'
      cases hk'
      exact ⟨d, hd, rfl⟩
    · rw [if_neg hkj] at hk'
      rw [nobit k c hk'] at hb
      cases hb

/-! ### Counting -/

/-- How many credentials there are. -/
def liveCount (recs : List Dc) : Nat := recs.countP (!·.deleted)

theorem liveCount_erase (recs : List Dc) (p : Nat) :
    liveCount recs = liveCount (recs.eraseIdx p) + (if recs[p]?.any (!·.deleted) then 1 else 0) := by
  induction recs generalizing p with
  | nil => rfl
  | cons d l ih =>
    cases p with
    | zero =>
      unfold liveCount
      rw [List.countP_cons]
      rfl
    | succ p =>
      have := ih p
      unfold liveCount at *
      rw [List.eraseIdx_cons_succ, List.countP_cons, List.countP_cons, this, List.getElem?_cons_succ]
      omega

theorem erase_setAt {l : List α} {p : Nat} {a : α} (hp : p ≤ l.length) : (setAt l p a).eraseIdx p = l.eraseIdx p := by
  unfold setAt
  split
  · rw [List.eraseIdx_set_eq]
  · have : p = l.length := by omega
    subst this
    rw [List.eraseIdx_append_of_length_le (Nat.le_refl _), Nat.sub_self, List.eraseIdx_of_length_le (Nat.le_refl _)]
    simp

/-- The counter tells the number of credentials: of those for which no update is pending, and one more during a
deletion. -/
def Counted (recs : List Dc) (a : Attr) : Prop :=
  a.numbers.toNat = (if a.add || a.del then liveCount (recs.eraseIdx a.index.toNat) else liveCount recs) + (if a.del then 1 else 0)

theorem liveCount_le (recs : List Dc) : liveCount recs ≤ recs.length := List.countP_le_length

end Verif.Ctap
