import Verif.Spec.PivKey
import Verif.Lemmas.PivAuth
/-
The parser of the dynamic authentication template.
-/
set_option linter.unusedSimpArgs false
namespace Verif.Piv
open Cmd Verif.Spec.Piv Verif.KeyFile Verif.Spec.Key

/-- The entry for a tag. -/
def Tlvs.at (t : Tlvs) (tag : Byte) : Option (Nat × Nat) :=
  if tag = 0x80 then t.w else if tag = 0x81 then t.c else if tag = 0x82 then t.r else t.e

/-- The entry points at the value. -/
def Points (m : Bytes) : Option (Nat × Nat) → Option Bytes → Prop
  | none, none => True
  | some (p, l), some v => l = v.length ∧ ∃ pre post, m = pre ++ v ++ post ∧ pre.length = p
  | _, _ => False

/-- After the elements `l`, starting with the entries `t`, the entries are `t'`. -/
def Loc (m : Bytes) (t t' : Tlvs) (l : List Item) : Prop :=
  ∀ tag ∈ ([0x80, 0x81, 0x82, 0x85] : List Byte),
    match valueOf tag l with
    | none => t'.at tag = t.at tag
    | some v => Points m (t'.at tag) (some v)

/-- The assignment of the loop. -/
def Tlvs.put (t : Tlvs) (tag : Byte) (v : Option (Nat × Nat)) : Tlvs :=
  if tag == 0x80 then { t with w := v } else if tag == 0x81 then { t with c := v }
  else if tag == 0x82 then { t with r := v } else { t with e := v }

theorem Tlvs.at_put {t : Tlvs} {tag tag' : Byte} {v : Option (Nat × Nat)}
    (h : tag ∈ ([0x80, 0x81, 0x82, 0x85] : List Byte)) (h' : tag' ∈ ([0x80, 0x81, 0x82, 0x85] : List Byte)) :
    (t.put tag v).at tag' = if tag = tag' then v else t.at tag' := by
  simp only [List.mem_cons, List.not_mem_nil, or_false] at h h'
  rcases h with rfl | rfl | rfl | rfl <;> rcases h' with rfl | rfl | rfl | rfl <;> rfl

theorem loc_cons {m pre post : Bytes} {t t' : Tlvs} {a : Item} {l : List Item} (ha : a.Legal)
    (hm : m = pre ++ a.val ++ post) (h : Loc m (t.put a.tag (some (pre.length, a.val.length))) t' l) :
    Loc m t t' (a :: l) := by
  intro tag ht
  have h1 := h tag ht
  unfold valueOf
  cases hv : valueOf tag l with
  | some v => rw [hv] at h1; simpa using h1
  | none =>
    rw [hv] at h1
    simp only at h1
    rw [Tlvs.at_put ha.1 ht] at h1
    by_cases e : a.tag = tag
    · rw [if_pos e] at h1
      simp only [if_pos e, Option.none_or]
      rw [h1]
      exact ⟨rfl, pre, post, hm, rfl⟩
    · rw [if_neg e] at h1
      simp only [if_neg e, Option.none_or]
      exact h1

theorem legal_tag {tag : Byte} : (tag != 0x80 && tag != 0x81 && tag != 0x82 && tag != 0x85) = false ↔
    tag ∈ ([0x80, 0x81, 0x82, 0x85] : List Byte) := by
  simp only [List.mem_cons, List.not_mem_nil, or_false]
  simp
  grind

theorem tlvLoop_inv {m : Bytes} : ∀ (n pos : Nat) (t t' : Tlvs), PE.Ok (tlvLoop m n pos t) t' → m.length ≤ n + pos →
    ∃ l : List Item, (∀ a ∈ l, a.Legal) ∧ m.drop pos = l.flatMap Item.enc ∧ Loc m t t' l := by
  intro n
  induction n with
  | zero =>
    intro pos t t' h hn
    unfold tlvLoop at h
    rw [PE.ok_pure_iff] at h
    subst h
    exact ⟨[], (fun _ h => by cases h), (by simp; omega), fun _ _ => rfl⟩
  | succ n ih =>
    intro pos t t' h hn
    unfold tlvLoop at h
    by_cases hp : pos < m.length
    · rw [if_pos hp] at h
      rw [PE.ok_bind_iff] at h
      obtain ⟨tag, htag, h⟩ := h
      rw [PE.ok_lift_iff, rd_eq_ok] at htag
      cases hc : (tag != 0x80 && tag != 0x81 && tag != 0x82 && tag != 0x85) with
      | true =>
        rw [if_pos hc] at h
        exact (PE.ok_throw_iff.1 h).elim
      | false =>
        rw [if_neg (by simp [hc])] at h
        rw [PE.ok_bind_iff] at h
        obtain ⟨o, ho, h⟩ := h
        rw [PE.ok_lift_iff] at ho
        cases o with
        | none => exact (PE.ok_throw_iff.1 h).elim
        | some a =>
          obtain ⟨k, ls⟩ := a
          have h' := Key.tlvLen_drop m (pos + 1) 0 (m.length - (pos + 1))
          rw [Nat.add_zero, ho] at h'
          obtain ⟨len, rest, h1, h2, h3, h4⟩ := Key.tlvLen_inv (mem := m.drop (pos + 1)) (by simpa using h')
          have hml : m.length = pos + 1 + len.length + rest.length := by
            have := congrArg List.length h1
            simp at this; omega
          have e1 : m = m.take pos ++ ([tag] ++ m.drop (pos + 1)) := by
            have : m.drop pos = [tag] ++ m.drop (pos + 1) := by
              rw [List.getElem?_eq_getElem hp] at htag
              cases htag
              simp
            rw [← this, List.take_append_drop]
          have ha : Item.Legal ⟨tag, len, rest.take k⟩ := ⟨legal_tag.1 hc, by
            show LenEnc (rest.take k).length len
            rw [List.length_take, Nat.min_eq_left h4]; exact h2⟩
          have hm : m = (m.take pos ++ [tag] ++ len) ++ rest.take k ++ rest.drop k := by
            calc m = _ := e1
              _ = _ := by rw [h1]; simp [List.take_append_drop]
          have hpl : (m.take pos ++ [tag] ++ len).length = pos + 1 + ls := by
            simp [h3]; omega
          have hk : (rest.take k).length = k := by simp; omega
          obtain ⟨l, hl, hd, hloc⟩ := ih _ _ _ h (by omega)
          refine ⟨⟨tag, len, rest.take k⟩ :: l, ?_, ?_, ?_⟩
          · intro b hb
            rcases List.mem_cons.1 hb with rfl | hb
            · exact ha
            · exact hl b hb
          · rw [List.flatMap_cons, ← hd]
            have e2 : m.drop pos = [tag] ++ len ++ rest.take k ++ rest.drop k := by
              conv => lhs; rw [hm]
              rw [List.append_assoc (m.take pos ++ [tag] ++ len), List.append_assoc (m.take pos ++ [tag]),
                List.append_assoc (m.take pos)]
              rw [List.drop_left' (by simp; omega)]
              simp
            have e3 : m.drop (pos + 1 + ls + k) = rest.drop k := by
              conv => lhs; rw [hm]
              exact List.drop_left' (by rw [List.length_append, hpl, hk])
            rw [e2, e3]
            simp [Item.enc]
          · refine loc_cons (pre := m.take pos ++ [tag] ++ len) (post := rest.drop k) ha hm ?_
            show Loc m (t.put tag (some ((m.take pos ++ [tag] ++ len).length, (rest.take k).length))) t' l
            rw [hpl, hk]
            exact hloc
    · rw [if_neg hp, PE.ok_pure_iff] at h
      subst h
      exact ⟨[], (fun _ h => by cases h), (by simp; omega), fun _ _ => rfl⟩

/-- A template that was read is one, and the entries point at the values. -/
theorem tlvs_inv {m : Bytes} {t : Tlvs} (h : PE.Ok (tlvs m) t) (h0 : m[0]? = some 0x7C) :
    ∃ l, Template m l ∧ Loc m ⟨none, none, none, none⟩ t l := by
  unfold tlvs at h
  rw [PE.ok_bind_iff] at h
  obtain ⟨o, ho, h⟩ := h
  rw [PE.ok_lift_iff] at ho
  cases o with
  | none => exact (PE.ok_throw_iff.1 h).elim
  | some a =>
    obtain ⟨k, ls⟩ := a
    have h' := Key.tlvLen_drop m 1 0 (m.length - 1)
    rw [Nat.add_zero, ho] at h'
    obtain ⟨len, rest, h1, h2, h3, h4⟩ := Key.tlvLen_inv (mem := m.drop 1) (by simpa using h')
    obtain ⟨l, hl, hd, hloc⟩ := tlvLoop_inv _ _ _ _ h (by omega)
    have e : m = [0x7C] ++ len ++ rest := by
      cases m with
      | nil => cases h0
      | cons b m' =>
        simp only [List.getElem?_cons_zero, Option.some.injEq] at h0
        subst h0
        simpa using h1
    have hr : rest = l.flatMap Item.enc := by
      rw [← hd, e]
      exact (List.drop_left' (by simp [h3]; omega)).symm
    exact ⟨l, ⟨hl, k, len, h2, hr ▸ h4, hr ▸ e⟩, hloc⟩

theorem lenEnc_pos {n : Nat} {l : Bytes} (h : LenEnc n l) : 1 ≤ l.length := by
  cases h <;> simp

theorem tlvLoop_run {m : Bytes} : ∀ (l : List Item) (n pos : Nat) (t : Tlvs) (pre : Bytes), (∀ a ∈ l, a.Legal) →
    m = pre ++ l.flatMap Item.enc → pre.length = pos → m.length ≤ n + pos →
    ∃ t', PE.Ok (tlvLoop m n pos t) t' ∧ Loc m t t' l := by
  intro l
  induction l with
  | nil =>
    intro n pos t pre _ hm hp _
    have hl : ¬ pos < m.length := by rw [hm]; simp; omega
    cases n with
    | zero => exact ⟨t, by unfold tlvLoop; exact PE.ok_pure_iff.2 rfl, fun _ _ => rfl⟩
    | succ n => exact ⟨t, by unfold tlvLoop; rw [if_neg hl]; exact PE.ok_pure_iff.2 rfl, fun _ _ => rfl⟩
  | cons a l ih =>
    intro n pos t pre hl hm hp hn
    have ha := hl a (by simp)
    have hlen := lenEnc_pos ha.2
    have hm' : m = (pre ++ [a.tag] ++ a.len) ++ a.val ++ l.flatMap Item.enc := by
      rw [hm]; simp [Item.enc]
    have hml : m.length = pos + 1 + a.len.length + a.val.length + (l.flatMap Item.enc).length := by
      rw [hm']; simp; omega
    cases n with
    | zero => omega
    | succ n =>
      obtain ⟨t', h1, h2⟩ := ih n (pos + 1 + a.len.length + a.val.length)
        (t.put a.tag (some ((pre ++ [a.tag] ++ a.len).length, a.val.length)))
        ((pre ++ [a.tag] ++ a.len) ++ a.val) (fun b hb => hl b (List.mem_cons_of_mem _ hb)) hm' (by simp; omega)
        (by omega)
      refine ⟨t', ?_, loc_cons ha hm' h2⟩
      unfold tlvLoop
      rw [if_pos (by omega)]
      rw [PE.ok_bind_iff]
      refine ⟨a.tag, ?_, ?_⟩
      · rw [PE.ok_lift_iff, rd_eq_ok, hm', ← hp]
        simp
      rw [if_neg (by rw [legal_tag.2 ha.1]; decide)]
      rw [PE.ok_bind_iff]
      refine ⟨some (a.val.length, a.len.length), ?_, ?_⟩
      · rw [PE.ok_lift_iff]
        exact Key.tlvLen_enc ha.2 (pre := pre ++ [a.tag]) (rest := a.val ++ l.flatMap Item.enc) (by rw [hm']; simp)
          (by simp; omega) (by omega)
      · have e : (pre ++ [a.tag] ++ a.len).length = pos + 1 + a.len.length := by simp; omega
        rw [e] at h1
        exact h1

/-- A template is read, and the entries point at the values. -/
theorem tlvs_run {m : Bytes} {l : List Item} (h : Template m l) :
    ∃ t, PE.Ok (tlvs m) t ∧ Loc m ⟨none, none, none, none⟩ t l := by
  obtain ⟨hl, n, len, h1, h2, h3⟩ := h
  obtain ⟨t, ht, hloc⟩ := tlvLoop_run l m.length (1 + len.length) ⟨none, none, none, none⟩ ([0x7C] ++ len) hl h3
    (by simp; omega) (by omega)
  refine ⟨t, ?_, hloc⟩
  unfold tlvs
  rw [PE.ok_bind_iff]
  refine ⟨some (n, len.length), ?_, ht⟩
  rw [PE.ok_lift_iff]
  exact Key.tlvLen_enc h1 (pre := [0x7C]) (rest := l.flatMap Item.enc) (by rw [h3]; simp) rfl (by rw [h3]; simp only [List.length_append, List.length_cons, List.length_nil] at *; omega)

/-- Which entries there are. -/
theorem loc_points {m : Bytes} {t : Tlvs} {l : List Item} (h : Loc m ⟨none, none, none, none⟩ t l) :
    Points m t.w (valueOf 0x80 l) ∧ Points m t.c (valueOf 0x81 l) ∧ Points m t.r (valueOf 0x82 l) ∧
    Points m t.e (valueOf 0x85 l) := by
  have key : ∀ tag, tag ∈ ([0x80, 0x81, 0x82, 0x85] : List Byte) → Points m (t.at tag) (valueOf tag l) := by
    intro tag ht
    have h1 := h tag ht
    cases hv : valueOf tag l with
    | none =>
      rw [hv] at h1
      simp only at h1
      rw [h1]
      simp only [List.mem_cons, List.not_mem_nil, or_false] at ht
      rcases ht with rfl | rfl | rfl | rfl <;> exact trivial
    | some v => rw [hv] at h1; exact h1
  exact ⟨key 0x80 (by decide), key 0x81 (by decide), key 0x82 (by decide), key 0x85 (by decide)⟩

theorem points_none {m : Bytes} {o : Option (Nat × Nat)} (h : Points m o none) : o = none := by
  cases o
  · rfl
  · exact h.elim

theorem points_some {m : Bytes} {o : Option (Nat × Nat)} {v : Bytes} (h : Points m o (some v)) :
    ∃ pre post, o = some (pre.length, v.length) ∧ m = pre ++ v ++ post := by
  cases o with
  | none => exact h.elim
  | some a =>
    obtain ⟨p, l⟩ := a
    obtain ⟨rfl, pre, post, h1, rfl⟩ := h
    exact ⟨pre, post, rfl, h1⟩

theorem points_of_some {m : Bytes} {o : Option Bytes} {p l : Nat} (h : Points m (some (p, l)) o) :
    ∃ v pre post, o = some v ∧ l = v.length ∧ p = pre.length ∧ m = pre ++ v ++ post := by
  cases o with
  | none => exact h.elim
  | some v =>
    obtain ⟨rfl, pre, post, h1, rfl⟩ := h
    exact ⟨v, pre, post, rfl, rfl, rfl, h1⟩

/-- A request for a signature reaches the first case. -/
theorem caseOf_sign {m : Bytes} {t : Tlvs} {l : List Item} {ch : Bytes} (h : Loc m ⟨none, none, none, none⟩ t l)
    (ha : AsksSign l ch) : ∃ pre post, caseOf t = .sign pre.length ch.length ∧ m = pre ++ ch ++ post := by
  obtain ⟨hw, hc, hr, _⟩ := loc_points h
  obtain ⟨h1, h2, h3, h4⟩ := ha
  rw [h4] at hw
  rw [h1] at hc
  rw [h3] at hr
  have hw := points_none hw
  obtain ⟨pre, post, hc, hm⟩ := points_some hc
  obtain ⟨p', q', hr, _⟩ := points_some hr
  refine ⟨pre, post, ?_, hm⟩
  obtain ⟨tw, tc, tr, te⟩ := t
  simp only at hw hc hr
  rw [hw, hc, hr]
  cases ch with
  | nil => exact absurd rfl h2
  | cons b ch => rfl

theorem caseOf_ecdh {m : Bytes} {t : Tlvs} {l : List Item} {pt : Bytes} (h : Loc m ⟨none, none, none, none⟩ t l)
    (ha : AsksEcdh l pt) : ∃ pre post, caseOf t = .ecdh pre.length pt.length ∧ m = pre ++ pt ++ post := by
  obtain ⟨hw, hc, hr, he⟩ := loc_points h
  obtain ⟨h1, h2, h3, h4, h5⟩ := ha
  rw [h4] at hc
  rw [h1] at he
  rw [h3] at hr
  have hc := points_none hc
  obtain ⟨pre, post, he, hm⟩ := points_some he
  obtain ⟨p', q', hr, _⟩ := points_some hr
  refine ⟨pre, post, ?_, hm⟩
  obtain ⟨tw, tc, tr, te⟩ := t
  simp only at hw hc hr he
  rw [hc, hr, he]
  cases pt with
  | nil => exact absurd rfl h2
  | cons b pt =>
    cases tw with
    | none => rfl
    | some a =>
      obtain ⟨p, k⟩ := a
      obtain ⟨v, _, _, hv, hk, _⟩ := points_of_some hw
      cases v with
      | nil => exact absurd hv h5
      | cons c v => subst hk; rfl

/-- Conversely. -/
theorem sign_of_case {m : Bytes} {t : Tlvs} {l : List Item} {p n : Nat} (h : Loc m ⟨none, none, none, none⟩ t l)
    (hc : caseOf t = .sign p n) : ∃ ch pre post, AsksSign l ch ∧ p = pre.length ∧ n = ch.length ∧ m = pre ++ ch ++ post := by
  obtain ⟨hw, hc', hr, _⟩ := loc_points h
  unfold caseOf at hc
  split at hc <;> cases hc
  simp only at hw hc' hr
  obtain ⟨v, pre, post, h1, h2, h3, h4⟩ := points_of_some hc'
  obtain ⟨v', _, _, h1', h2', _⟩ := points_of_some hr
  have hw : valueOf 0x80 l = none := by
    cases hv : valueOf 0x80 l with
    | none => rfl
    | some _ => rw [hv] at hw; exact hw.elim
  have : v' = [] := List.length_eq_zero_iff.1 h2'.symm
  subst this
  exact ⟨v, pre, post, ⟨h1, by intro e; subst e; simp at h2, h1', hw⟩, h3, h2, h4⟩

theorem ecdh_of_case {m : Bytes} {t : Tlvs} {l : List Item} {p n : Nat} (h : Loc m ⟨none, none, none, none⟩ t l)
    (hc : caseOf t = .ecdh p n) : ∃ pt pre post, AsksEcdh l pt ∧ p = pre.length ∧ n = pt.length ∧ m = pre ++ pt ++ post := by
  obtain ⟨hw, hc', hr, he⟩ := loc_points h
  obtain ⟨tw, tc, tr, te⟩ := t
  simp only at hw hc' hr he
  rcases tc with _ | ⟨cp, _ | cl⟩
  · have hc' : valueOf 0x81 l = none := by
      cases hv : valueOf 0x81 l with
      | none => rfl
      | some _ => rw [hv] at hc'; exact hc'.elim
    rcases tr with _ | ⟨rp, _ | rl⟩
    · rcases tw with _ | ⟨wp, _ | wl⟩ <;> simp [caseOf] at hc
    · rcases tw with _ | ⟨wp, _ | wl⟩
      · rcases te with _ | ⟨ep, _ | el⟩ <;> simp [caseOf] at hc
        obtain ⟨rfl, rfl⟩ := hc
        obtain ⟨v, pre, post, h1, h2, h3, h4⟩ := points_of_some he
        obtain ⟨v', _, _, h1', h2', _⟩ := points_of_some hr
        have : v' = [] := List.length_eq_zero_iff.1 h2'.symm
        subst this
        have hw : valueOf 0x80 l ≠ some [] := by
          intro hv; rw [hv] at hw; exact hw.elim
        exact ⟨v, pre, post, ⟨h1, by intro e; subst e; simp at h2, h1', hc', hw⟩, h3, h2, h4⟩
      · simp [caseOf] at hc
      · rcases te with _ | ⟨ep, _ | el⟩ <;> simp [caseOf] at hc
        obtain ⟨rfl, rfl⟩ := hc
        obtain ⟨v, pre, post, h1, h2, h3, h4⟩ := points_of_some he
        obtain ⟨v', _, _, h1', h2', _⟩ := points_of_some hr
        have : v' = [] := List.length_eq_zero_iff.1 h2'.symm
        subst this
        have hw : valueOf 0x80 l ≠ some [] := by
          intro hv
          obtain ⟨v, _, _, hv', hk, _⟩ := points_of_some hw
          rw [hv] at hv'
          cases hv'
          simp at hk
        exact ⟨v, pre, post, ⟨h1, by intro e; subst e; simp at h2, h1', hc', hw⟩, h3, h2, h4⟩
    · simp [caseOf] at hc
  · simp [caseOf] at hc
  · rcases tr with _ | ⟨rp, _ | rl⟩ <;> rcases tw with _ | ⟨wp, _ | wl⟩ <;> simp [caseOf] at hc

end Verif.Piv
