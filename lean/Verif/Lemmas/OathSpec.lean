import Verif.Lemmas.OathStep
import Mathlib.Data.List.Perm.Subperm
set_option linter.unusedSimpArgs false
namespace Verif.Oath
open Verif.Spec.Oath Cmd

variable {A : Fault → Prop} {x : Ext} {i : In} {f f' : Flash} {r : Ram}

/-! ### Full store -/

theorem full_iff (hv : Valid f) {o : OathFile} (ho : f.oath = some o) :
    (store f).Full ↔ (∀ t ∈ o.recs, t.name ≠ []) ∧ 100 ≤ o.recs.length := by
  obtain ⟨hl, hw, hu⟩ := hv o ho
  constructor
  · rintro ⟨l, hnd, hlen, hmem⟩
    have hsub : l ⊆ (o.recs.filter fun t => decide (t.name ≠ [])).map (·.name) := by
      intro n hn
      obtain ⟨q, hq⟩ := Option.ne_none_iff_exists'.mp (hmem n hn)
      obtain ⟨h1, h2, j, hj⟩ := (store_some_iff ho hu).mp hq
      simp only [List.mem_map, List.mem_filter, decide_eq_true_eq]
      exact ⟨q, ⟨List.mem_of_getElem? hj, h2 ▸ h1⟩, h2⟩
    have hle := (List.Nodup.subperm hnd hsub).length_le
    rw [List.length_map, hlen] at hle
    have hle2 := List.length_filter_le (fun t : Rec => decide (t.name ≠ [])) o.recs
    have heq : (o.recs.filter fun t => decide (t.name ≠ [])) = o.recs :=
      List.filter_sublist.eq_of_length (by omega)
    refine ⟨?_, by omega⟩
    intro t ht
    rw [← heq] at ht
    simpa using (List.mem_filter.mp ht).2
  · rintro ⟨hne, hlen⟩
    refine ⟨o.recs.map (·.name), ?_, by simp; omega, ?_⟩
    · rw [List.Nodup, List.pairwise_iff_getElem]
      intro j k hj hk hjk h
      simp only [List.length_map] at hj hk
      simp only [List.getElem_map] at h
      have hj' : o.recs[j]? = some o.recs[j] := by simp
      have hk' : o.recs[k]? = some o.recs[k] := by simp
      have := hu j k _ _ hj' hk' (hne _ (List.getElem_mem _)) h
      omega
    · intro n hn
      obtain ⟨q, hq, rfl⟩ := List.mem_map.mp hn
      obtain ⟨j, hj⟩ := List.mem_iff_getElem?.mp hq
      rw [store_of_get ho hu hj (hne q hq)]; simp

/-! ### Decimal digits -/

theorem decimal_snoc (b : Bytes) (d : Byte) : decimal (b ++ [d]) = 10 * decimal b + (d.toNat - 0x30) := by
  simp [decimal]

theorem ascii_succ (d n : Nat) : ascii (d + 1) n = ascii d (n / 10) ++ [UInt8.ofNat (0x30 + n % 10)] := by
  unfold ascii
  rw [List.range_succ, List.map_append]
  congr 1
  · apply List.map_congr_left
    intro i hi
    have hi : i < d := by simpa using hi
    have : d + 1 - 1 - i = (d - 1 - i) + 1 := by omega
    rw [this, Nat.pow_succ', Nat.div_div_eq_div_mul]
  · simp

theorem ascii_length (d n : Nat) : (ascii d n).length = d := by simp [ascii]

theorem ascii_digit (d n : Nat) : ∀ b ∈ ascii d n, 0x30 ≤ b ∧ b ≤ 0x39 := by
  intro b hb
  simp only [ascii, List.mem_map, List.mem_range] at hb
  obtain ⟨i, _, rfl⟩ := hb
  have : n / 10 ^ (d - 1 - i) % 10 < 10 := Nat.mod_lt _ (by decide)
  generalize n / 10 ^ (d - 1 - i) % 10 = v at this
  have : ∀ v : Fin 10, (0x30 : Byte) ≤ UInt8.ofNat (0x30 + v.val) ∧ UInt8.ofNat (0x30 + v.val) ≤ (0x39 : Byte) := by
    decide
  exact this ⟨v, by assumption⟩

theorem ascii_decimal (d n : Nat) : decimal (ascii d n) = n % 10 ^ d := by
  induction d generalizing n with
  | zero => simp [ascii, decimal, Nat.mod_one]
  | succ d ih =>
    rw [ascii_succ, decimal_snoc, ih]
    have h10 : n % 10 < 10 := Nat.mod_lt _ (by decide)
    have : (UInt8.ofNat (0x30 + n % 10)).toNat - 0x30 = n % 10 := by
      simp; omega
    rw [this, Nat.pow_succ', Nat.mod_mul]
    omega

/-! ### Histories -/

theorem run_cons (s : St) (op : Op) (env : Env) (h : List (Op × Env)) :
    run x s ((op, env) :: h) = ((run x (step x s op env).1 h).1,
      (step x s op env).2 :: (run x (step x s op env).1 h).2) := rfl

theorem run_append (s : St) (h h' : List (Op × Env)) :
    (run x s (h ++ h')).1 = (run x (run x s h).1 h').1 := by
  induction h generalizing s with
  | nil => rfl
  | cons p h ih => obtain ⟨op, env⟩ := p; simp only [List.cons_append, run_cons]; exact ih _

theorem any_all (env : Env) : env.all anyFault := fun _ => trivial

theorem valid_step (hx : GoodHmac x) {s : St} (hv : Valid s.flash) (op : Op) (env : Env) :
    Valid (step x s op env).1.flash := (step_store hv (step_eff hx s op (any_all env))).1

theorem valid_run (hx : GoodHmac x) {s : St} (hv : Valid s.flash) (h : List (Op × Env)) :
    Valid (run x s h).1.flash := by
  induction h generalizing s with
  | nil => exact hv
  | cons p h ih => obtain ⟨op, env⟩ := p; exact ih (valid_step hx hv op env)

theorem nameReq_rename {d n a b : Bytes} (h : NameReq d n) (h' : RenameReq d a b) : n = a := by
  obtain ⟨ha, _, rest, hd⟩ := h'
  exact nameReq_unique h ⟨ha, _, hd⟩

theorem later_refl (q : Rec) : Later q q := ⟨rfl, Nat.le_refl _⟩

theorem later_trans {a b c : Rec} (h : Later a b) (h' : Later b c) : Later a c := by
  refine ⟨?_, Nat.le_trans h.2 h'.2⟩
  rw [h'.1, h.1]

theorem later_of_advance {q q' : Rec} (h : Advance q q') : Later q q' := by
  rcases h with rfl | ⟨c, rfl, _, (⟨_, h⟩ | ⟨_, _, h⟩)⟩
  · exact later_refl _
  · exact ⟨rfl, by show num q.chal ≤ num c; omega⟩
  · exact ⟨rfl, h⟩

theorem keeps_step {m m' : Store} {op : Op} {out : Out} {n : Bytes} {q : Rec}
    (h : StoreStep False m op out m') (hk : Keeps n op) (hq : m n = some q) :
    ∃ q', m' n = some q' ∧ Later q q' := by
  have hsame : m' = m → ∃ q', m' n = some q' ∧ Later q q' := by
    rintro rfl; exact ⟨q, hq, later_refl q⟩
  have hadv : m.Advanced m' → ∃ q', m' n = some q' ∧ Later q q' := by
    intro ha
    rcases ha n with ⟨h1, _⟩ | ⟨a, b, h1, h2, h3⟩
    · rw [hq] at h1; cases h1
    · rw [hq] at h1; cases h1; exact ⟨b, h2, later_of_advance h3⟩
  cases op with
  | apdu i =>
    simp only [StoreStep] at h
    obtain ⟨hk1, hk2⟩ := hk
    split at h
    · rcases h with ⟨_, r, p, c, hr, hn, rfl⟩ | ⟨_, h⟩
      · have : n ≠ r.name := by rintro rfl; rw [hq] at hn; cases hn
        exact ⟨q, by simp [Store.insert, this, hq], later_refl q⟩
      · exact hsame h
    split at h
    · rename_i hi
      rcases h with ⟨_, a, ha, hn, rfl⟩ | ⟨_, h⟩
      · have : n ≠ a := by rintro rfl; exact hk1 hi ha
        exact ⟨q, by simp [Store.erase, this, hq], later_refl q⟩
      · exact hsame h
    split at h
    · rename_i hi
      rcases h with ⟨_, a, b, hab, hma, hmb, rfl⟩ | ⟨_, h⟩
      · have h1 : n ≠ a := by rintro rfl; exact hk2 hi b hab
        have h2 : n ≠ b := by rintro rfl; rw [hq] at hmb; cases hmb
        exact ⟨q, by simp [Store.rekey, h1, h2, hq], later_refl q⟩
      · exact hsame h
    split at h
    · exact hadv h
    · exact hsame h
  | touch => exact hadv h
  | install reset rnd =>
    rcases h with h | ⟨_, h | h⟩
    · exact hsame h
    · rw [show reset = false from hk] at h; cases h
    · exact h.elim
  | passRead => exact hsame h
  | passWrite => exact hsame h
  | passInstall => exact hsame h
  | powerOff => exact hsame h
  | boot => exact hsame h

theorem cuts_step (hx : GoodHmac x) {s : St} (hv : Valid s.flash) (op : Op) {env : Env}
    (he : env.all cutsOnly) :
    StoreStep False (store s.flash) op (step x s op env).2 (store (step x s op env).1.flash) := by
  have h := (step_store hv (step_eff hx s op he)).2
  have hf : cutsOnly .fail = False := by simp [cutsOnly]
  rw [hf] at h; exact h

theorem keeps_run (hx : GoodHmac x) {s : St} (hv : Valid s.flash) {n : Bytes} {q : Rec}
    (hq : store s.flash n = some q) (h : List (Op × Env))
    (hk : ∀ p ∈ h, Keeps n p.1 ∧ p.2.all cutsOnly) :
    ∃ q', store (run x s h).1.flash n = some q' ∧ Later q q' := by
  induction h generalizing s q with
  | nil => exact ⟨q, hq, later_refl q⟩
  | cons p h ih =>
    obtain ⟨op, env⟩ := p
    obtain ⟨h1, h2⟩ := hk (op, env) (by simp)
    obtain ⟨q1, hq1, hl1⟩ := keeps_step (cuts_step hx hv op h2) h1 hq
    obtain ⟨q2, hq2, hl2⟩ := ih (valid_step hx hv op env) hq1 (fun p hp => hk p (by simp [hp]))
    exact ⟨q2, hq2, later_trans hl1 hl2⟩

end Verif.Oath
