import Verif.Lemmas.OathGather
/-
C106: CALCULATE ALL with its pages is complete and exact, or refused.
-/
set_option linter.unusedSimpArgs false
namespace Verif.Oath
open Verif.Spec.Oath Cmd

variable {x : Ext}

theorem active_takes {q : Rec} (hq : WfRec q) (hn : q.name ≠ []) : Active q ↔ Takes q := by
  unfold Active Takes
  have hth : Totp q → ¬ Hotp q := by
    intro h1 h2; unfold Totp at h1; unfold Hotp at h2; rw [h1] at h2; exact absurd h2 (by decide)
  constructor
  · rintro ⟨_, h1, h2, h3⟩; exact ⟨hq.type.resolve_left h1, h3, h2⟩
  · rintro ⟨h1, h2, h3⟩; exact ⟨hn, hth h1, h3, h2⟩

theorem refuses_iff {c : Bytes} {q : Rec} (hq : WfRec q) (hn : q.name ≠ []) :
    RefusesChal c q ↔ Active q ∧ ¬ (c.length = 8 ∧ memcmpGt q.chal c = false) := by
  unfold RefusesChal
  rw [active_takes hq hn]
  by_cases hl : c.length = 8
  · have := memcmpGt_iff (a := q.chal) (b := c) (by rw [hq.chal, hl])
    cases hm : memcmpGt q.chal c <;> simp_all
  · simp [hl]

/-- The file after all pages, slot by slot. -/
theorem gathered_slot {s s' : St} (hv : Valid s.flash) {o : OathFile} (ho : s.flash.oath = some o) {c : Bytes}
    (hp : AllPost (PageRel noFault c 0 o.recs.length) s.flash o s'.flash) :
    ∃ o', s'.flash = { s.flash with oath := some o' } ∧ o'.recs.length = o.recs.length ∧
      ∀ (k : Nat) q q', o.recs[k]? = some q → o'.recs[k]? = some q' → q.name ≠ [] →
        q' = refreshed c q ∧ ¬ RefusesChal c q := by
  obtain ⟨_, hwf, _⟩ := hv o ho
  obtain ⟨o', hf', hrel⟩ := hp
  refine ⟨o', hf', hrel.2.2.1, ?_⟩
  intro k q q' hq hq' hn
  have e := hrel.2.2.2 k q q' hq hq'
  have hw := hwf q (List.mem_of_getElem? hq)
  unfold PageRel at e
  rw [if_pos ⟨Nat.zero_le _, lt_of_getElem? hq⟩] at e
  rw [refuses_iff hw hn]
  unfold refreshed
  rcases e with ⟨h1, rfl⟩ | ⟨h1, h2, h3, h4⟩
  · exact ⟨by rw [if_neg (fun h => h1 ((active_takes hw hn).mpr h))], fun h => h1 h.1⟩
  · rcases h4 with rfl | ⟨hf, _⟩
    · exact ⟨by rw [if_pos ((active_takes hw hn).mp h1)], fun h => h.2 ⟨h2, h3⟩⟩
    · exact absurd hf no_fail

/-- The names are as before. -/
theorem gathered_name {s s' : St} {o o' : OathFile} {c : Bytes}
    (hrel : Rel (PageRel noFault c 0 o.recs.length) o o') {k : Nat} {q q' : Rec} (hq : o.recs[k]? = some q)
    (hq' : o'.recs[k]? = some q') : q'.name = q.name := by
  have e := hrel.2.2.2 k q q' hq hq'
  unfold PageRel at e
  split at e
  · rcases e.adv with rfl | ⟨_, _, _, rfl⟩ <;> rfl
  · rw [e]

theorem gathered_store {s s' : St} (hv : Valid s.flash) {o : OathFile} (ho : s.flash.oath = some o) {c : Bytes}
    (hp : AllPost (PageRel noFault c 0 o.recs.length) s.flash o s'.flash) (n : Bytes) :
    store s'.flash n = (store s.flash n).map (refreshed c) := by
  obtain ⟨o', hf', hl, hslot⟩ := gathered_slot hv ho hp
  obtain ⟨o'', hf'', hrel⟩ := hp
  have : o'' = o' := by
    rw [hf'] at hf''
    have := congrArg Flash.oath hf''
    simpa using this.symm
  subst this
  have ho' : s'.flash.oath = some o'' := by rw [hf']
  obtain ⟨_, hwf, hu⟩ := hv o ho
  have hu' : Uniq o''.recs := by
    intro j k a b ha hb hn hab
    obtain ⟨a0, ha0⟩ := get_of_length' hl.symm ha
    obtain ⟨b0, hb0⟩ := get_of_length' hl.symm hb
    rw [gathered_name (s := s) (s' := s') hrel ha0 ha] at hn hab
    rw [gathered_name (s := s) (s' := s') hrel hb0 hb] at hab
    exact hu j k a0 b0 ha0 hb0 hn hab
  by_cases hn : n = []
  · simp [store, hn]
  cases hs : store s.flash n with
  | none =>
    rw [Option.map_none, store_none_iff ho' hn]
    rw [store_none_iff ho hn] at hs
    intro q' hq'
    obtain ⟨k, hk⟩ := List.mem_iff_getElem?.mp hq'
    obtain ⟨q, hq⟩ := get_of_length' hl.symm hk
    rw [gathered_name (s := s) (s' := s') hrel hq hk]
    exact hs q (List.mem_of_getElem? hq)
  | some q =>
    obtain ⟨_, hqn, j, hj⟩ := (store_some_iff ho hu).mp hs
    obtain ⟨q', hq'⟩ := get_of_length' hl hj
    have hne : q.name ≠ [] := by rw [hqn]; exact hn
    have e := (hslot j q q' hj hq' hne).1
    have hn' := gathered_name (s := s) (s' := s') hrel hj hq'
    have := store_of_get ho' hu' hq' (by rw [hn']; exact hne)
    rw [hn', hqn] at this
    rw [this, Option.map_some, e]

theorem allSpan_all {t : Bool} {c : Bytes} (recs : List Rec) :
    allSpan x t c recs 0 recs.length = recs.flatMap (allEntry x t c) := by
  unfold allSpan; simp

theorem gatherAll_cases (hx : GoodHmac x) {s : St} (hv : Valid s.flash) (hval : s.ram.validated = true)
    {o : OathFile} (ho : s.flash.oath = some o) {c : Bytes} (hc : 1 ≤ c.length ∧ c.length ≤ 8) (trunc : Bool)
    (le : Nat → Nat) (hle : ∀ n, (if trunc then 73 else 133) ≤ le n) {k : Nat} (hk : 100 < k) :
    (∃ s', gatherAll x k le s trunc c = some (o.recs.flatMap (allEntry x trunc c), SW.ok, s') ∧
      AllPost (PageRel noFault c 0 o.recs.length) s.flash o s'.flash) ∨
    (∃ b s', gatherAll x k le s trunc c = some (b, SW.security, s') ∧ Objects c o.recs 0) := by
  obtain ⟨hl, hw, _⟩ := hv o ho
  have := gather_from hx c (if trunc then .calcTrunc else .calcFull) (by cases trunc <;> simp) k s o 0xA4
    (if trunc then 1 else 0) (chalTlv c) 0 le ho (fun q hq => (hw q hq).name) hval
    (by intro n; have := hle n; cases trunc <;> simpa using this)
    (.inl ⟨rfl, by cases trunc <;> rfl, rfl, hc.1, hc.2, rfl⟩) (by omega) (by omega)
  have ht : ((if trunc then Rem.calcTrunc else Rem.calcFull) == .calcTrunc) = trunc := by cases trunc <;> rfl
  rw [ht, allSpan_all] at this
  exact this

/-- C106. When no stored credential refuses the challenge, CALCULATE ALL with its SEND REMAINING pages gives
one entry for each stored credential, with the code for the challenge, whatever the page sizes (each large
enough for one entry). Afterwards the increasing-only TOTP credentials have the challenge as their last one,
and nothing else has changed. -/
theorem C106_all_complete (hx : GoodHmac x) {s : St} (hv : Valid s.flash) (hval : s.ram.validated = true)
    (hfile : s.flash.oath ≠ none) {c : Bytes} (hc : 1 ≤ c.length ∧ c.length ≤ 8) (trunc : Bool)
    (hok : ∀ n q, store s.flash n = some q → ¬ RefusesChal c q)
    (le : Nat → Nat) (hle : ∀ n, (if trunc then 73 else 133) ≤ le n) {k : Nat} (hk : 100 < k) :
    ∃ (l : List Rec) (s' : St), (l.map (·.name)).Nodup ∧ (∀ q, q ∈ l ↔ store s.flash q.name = some q) ∧
      gatherAll x k le s trunc c = some (l.flatMap (allResp x trunc c), SW.ok, s') ∧
      (∀ n, store s'.flash n = (store s.flash n).map (refreshed c)) ∧
      s'.flash.pass = s.flash.pass := by
  obtain ⟨o, ho⟩ := Option.ne_none_iff_exists'.mp hfile
  obtain ⟨hl, hw, hu⟩ := hv o ho
  rcases gatherAll_cases hx hv hval ho hc trunc le hle hk with ⟨s', hg, hp⟩ | ⟨b, s', hg, j, q, _, hq, ha, hno⟩
  · refine ⟨_, s', names_nodup hu, ?_, ?_, gathered_store hv ho hp, ?_⟩
    · intro q
      rw [List.mem_filter, store_some_iff ho hu, ← List.mem_iff_getElem?]
      simp only [decide_eq_true_eq]
      constructor
      · rintro ⟨h1, h2⟩; exact ⟨h2, trivial, h1⟩
      · rintro ⟨h1, _, h2⟩; exact ⟨h2, h1⟩
    · rw [hg, flatMap_all]
    · obtain ⟨o', hf', _⟩ := hp
      rw [hf']
  · exact absurd ((refuses_iff (hw q (List.mem_of_getElem? hq)) ha.1).mpr ⟨ha, hno⟩)
      (hok q.name q (store_of_get ho hu hq ha.1))

/-- C106. When one stored credential refuses the challenge, the run ends with 6982: the host does not get the
codes of the others either. -/
theorem C106_one_refuses_all (hx : GoodHmac x) {s : St} (hv : Valid s.flash) (hval : s.ram.validated = true)
    {c : Bytes} (hc : 1 ≤ c.length ∧ c.length ≤ 8) (trunc : Bool)
    {n : Bytes} {q : Rec} (hq : store s.flash n = some q) (hr : RefusesChal c q)
    (le : Nat → Nat) (hle : ∀ n, (if trunc then 73 else 133) ≤ le n) {k : Nat} (hk : 100 < k) :
    ∃ b s', gatherAll x k le s trunc c = some (b, SW.security, s') := by
  obtain ⟨o, ho⟩ := store_file hq
  obtain ⟨hl, hw, hu⟩ := hv o ho
  rcases gatherAll_cases hx hv hval ho hc trunc le hle hk with ⟨s', hg, hp⟩ | ⟨b, s', hg, _⟩
  · exfalso
    obtain ⟨o', _, hl', hslot⟩ := gathered_slot hv ho hp
    obtain ⟨hn, hqn, j, hj⟩ := (store_some_iff ho hu).mp hq
    obtain ⟨q', hq'⟩ := get_of_length' hl' hj
    exact (hslot j q q' hj hq' (by rw [hqn]; exact hn)).2 hr
  · exact ⟨b, s', hg⟩

/-- Non-vacuity: challenge 10, truncated, in pages of one or two entries. -/
example : (gatherAll exX 101 (fun _ => 73) exS true [0, 0, 0, 0, 0, 0, 0, 10]).map (fun p => (p.1, p.2.1)) =
    some ([0x71, 1, 0x68, 0x77, 1, 6, 0x71, 1, 0x74, 0x76, 5, 8, 0, 0, 0, 10, 0x71, 1, 0x6D, 0x77, 1, 6], SW.ok) ∧
    Valid exS.flash ∧ exS.ram.validated = true ∧ exS.flash.oath ≠ none ∧
    ∀ q ∈ [exH, exT, exM], ¬ RefusesChal [0, 0, 0, 0, 0, 0, 0, 10] q := by
  refine ⟨by decide +kernel, exS_valid, rfl, by decide, ?_⟩
  decide

/-- Non-vacuity: challenge 0 is refused by the increasing-only credential. -/
example : (gatherAll exX 101 (fun _ => 133) exS false [0, 0, 0, 0, 0, 0, 0, 0]).map (fun p => (p.1, p.2.1)) =
    some ([], SW.security) ∧ store exS.flash [0x74] = some exT ∧
    RefusesChal [0, 0, 0, 0, 0, 0, 0, 0] exT := by
  refine ⟨by decide +kernel, by decide, by decide⟩

end Verif.Oath
