import Verif.Spec.Device
import Mathlib.Data.List.Nodup
import Mathlib.Data.List.Induction
/-
C41: user presence needs a touch.
-/
namespace Verif.Device
open Verif.Spec.Device


/-- Every entry of the log fits the entries before it. -/
def Good (l : Log) : Prop := ∀ pre n e post, l = pre ++ (n, e) :: post → Fits n e post

/-- What holds in every reachable state. -/
structure Inv (s : St) : Prop where
  good : Good s.log
  touch : s.touch = pending s.log
  wait : ∀ w, s.wait = some w → ∃ n, openWait s.log = some n ∧ n ≤ s.now ∧ w.start = n % 2 ^ 32
  nowait : s.wait = none → openWait s.log = none
  strong : ∀ q, s.strong = some q → ∃ n, openStrong s.log = some (n, q.cur ++ q.rounds.flatten) ∧ n ≤ s.now ∧
    q.rounds.length < 5 ∧ (∀ r ∈ q.rounds, r ≠ [])
  nostrong : s.strong = none → openStrong s.log = none
  fresh : ∀ t ∈ s.touch.toList ++ used s.log, t.id < s.count ∧ t.time ≤ s.now
  nodup : ((s.touch.toList ++ used s.log).map (·.id)).Nodup

theorem inv_init : Inv St.init := by
  constructor <;> simp [St.init, pending, used, openWait, openStrong, Good]

theorem since_le (a b : Nat) (h : b ≤ a) : since (a % 2 ^ 32) (b % 2 ^ 32) ≤ a - b := by
  unfold since; omega

theorem good_cons {l : Log} {n : Nat} {e : Ev} (h : Good l) (he : Fits n e l) : Good ((n, e) :: l) := by
  intro pre n' e' post hl
  cases pre with
  | nil => simp at hl; obtain ⟨⟨rfl, rfl⟩, rfl⟩ := hl; exact he
  | cons p ps => simp at hl; exact h ps n' e' post hl.2

theorem inv_step {s : St} (h : Inv s) (op : Op) : Inv (step s op) := by
  obtain ⟨hg, ht, hw, hnw, hs, hns, hf, hn⟩ := h
  have hle : ∀ n, n ≤ s.now → since s.tick (n % 2 ^ 32) ≥ 30000 → n + 30000 ≤ s.now := by
    intro n hn h
    have := since_le s.now n hn
    unfold St.tick at h
    omega
  cases op with
  | tick d =>
    refine ⟨hg, ht, fun w h => ?_, hnw, fun q h => ?_, hns, fun t h => ?_, hn⟩
    · obtain ⟨n, h1, h2, h3⟩ := hw w h
      exact ⟨n, h1, Nat.le_add_right_of_le h2, h3⟩
    · obtain ⟨n, h1, h2, h3⟩ := hs q h
      exact ⟨n, h1, Nat.le_add_right_of_le h2, h3⟩
    · exact ⟨(hf t h).1, Nat.le_add_right_of_le (hf t h).2⟩
  | press b =>
    refine ⟨good_cons hg ⟨rfl, ?_⟩, rfl, hw, hnw, hs, hns, ?_, ?_⟩
    · rw [← ht]
      exact fun t h => (hf t h).1
    · intro t h
      simp [step, St.say, used] at h
      rcases h with rfl | h
      · exact ⟨Nat.lt_succ_self _, Nat.le_refl _⟩
      · exact ⟨Nat.lt_succ_of_lt (hf t (by simp [h])).1, (hf t (by simp [h])).2⟩
    · simp only [step, St.say, used, Option.toList_some, List.cons_append, List.nil_append, List.map_cons,
        List.nodup_cons]
      refine ⟨?_, ?_⟩
      · intro h
        obtain ⟨t, h, h'⟩ := List.mem_map.1 h
        have := (hf t (by simp [h])).1
        omega
      · rw [List.map_append] at hn
        exact (List.nodup_append.1 hn).2.1
  | expire =>
    refine ⟨good_cons hg trivial, rfl, hw, hnw, hs, hns, ?_, ?_⟩
    · exact fun t h => hf t (List.mem_append_right _ (by simpa [step, St.say, used] using h))
    · rw [List.map_append] at hn
      simpa [step, St.say, used] using (List.nodup_append.1 hn).2.1
  | take =>
    simp only [step]
    split
    · cases hto : s.touch with
      | none => exact ⟨hg, ht, hw, hnw, hs, hns, hf, hn⟩
      | some t =>
        rw [hto] at ht hf hn
        exact ⟨good_cons hg ht.symm, rfl, hw, hnw, hs, hns, hf, hn⟩
    · exact ⟨hg, ht, hw, hnw, hs, hns, hf, hn⟩
  | wait e =>
    simp only [step]
    split
    · unfold startWait
      cases hwo : s.wait with
      | some w =>
        obtain ⟨n, h1, h2, h3⟩ := hw w hwo
        refine ⟨good_cons hg ⟨n, h1, h2⟩, ht, hw, hnw, hs, hns, hf, hn⟩
      | none =>
        refine ⟨good_cons hg (hnw hwo), ht, ?_, by simp [St.say], hs, hns, hf, hn⟩
        intro w h
        simp [St.say] at h
        subst h
        exact ⟨s.now, rfl, Nat.le_refl _, rfl⟩
    · exact ⟨hg, ht, hw, hnw, hs, hns, hf, hn⟩
  | check =>
    simp only [step]
    split
    · next w hst hwo =>
      obtain ⟨n, h1, h2, h3⟩ := hw w hwo
      split
      · exact ⟨hg, ht, hw, hnw, hs, hns, hf, hn⟩
      · unfold check
        split
        · next hto =>
          refine ⟨hg, ht, ?_, by simp, hs, hns, hf, hn⟩
          intro w' h
          simp at h
          subst h
          exact ⟨n, h1, h2, h3⟩
        · next t hto =>
          rw [hto] at ht hf hn
          exact ⟨good_cons hg ⟨ht.symm, n, h1, h2⟩, rfl, by simp [St.say], fun _ => rfl, hs, hns, hf, hn⟩
    · exact ⟨hg, ht, hw, hnw, hs, hns, hf, hn⟩
  | body c =>
    simp only [step]
    split
    · next w hst hwo =>
      obtain ⟨n, h1, h2, h3⟩ := hw w hwo
      split
      · unfold body
        split
        · exact ⟨good_cons hg ⟨n, h1, h2⟩, ht, by simp [St.say], fun _ => rfl, hs, hns, hf, hn⟩
        · split
          · next h =>
            rw [h3] at h
            exact ⟨good_cons hg ⟨n, h1, hle n h2 h⟩, ht, by simp [St.say], fun _ => rfl, hs, hns, hf, hn⟩
          · split
            · simp only
              split
              · refine ⟨good_cons hg ⟨n, h1, h2⟩, ht, ?_, by simp [St.say], hs, hns, hf, hn⟩
                intro w' h
                simp [St.say] at h
                subst h
                exact ⟨n, h1, h2, h3⟩
              · refine ⟨hg, ht, ?_, by simp, hs, hns, hf, hn⟩
                intro w' h
                simp at h
                subst h
                exact ⟨n, h1, h2, h3⟩
            · refine ⟨hg, ht, ?_, by simp, hs, hns, hf, hn⟩
              intro w' h
              simp at h
              subst h
              exact ⟨n, h1, h2, h3⟩
      · exact ⟨hg, ht, hw, hnw, hs, hns, hf, hn⟩
    · exact ⟨hg, ht, hw, hnw, hs, hns, hf, hn⟩
  | strong =>
    simp only [step]
    split
    · next hfree =>
      have hso : s.strong = none := by
        cases h : s.strong <;> simp [St.free, h] at hfree ⊢
      refine ⟨good_cons hg (hns hso), ht, hw, hnw, ?_, by simp [St.say], hf, hn⟩
      intro q h
      simp [St.say] at h
      subst h
      exact ⟨s.now, rfl, Nat.le_refl _, by simp, by simp⟩
    · exact ⟨hg, ht, hw, hnw, hs, hns, hf, hn⟩
  | poll =>
    simp only [step]
    split
    · next q hso =>
      obtain ⟨n, h1, h2, h3, h4⟩ := hs q hso
      split
      · exact ⟨hg, ht, hw, hnw, hs, hns, hf, hn⟩
      · unfold poll
        have same : Inv { s with strong := some { q with polled := true } } := by
          refine ⟨hg, ht, hw, hnw, ?_, by simp, hf, hn⟩
          intro q' h
          simp at h
          subst h
          exact ⟨n, h1, h2, h3, h4⟩
        cases hto : s.touch with
        | none => simpa [hto] using same
        | some t =>
          simp only
          split
          · next hsh =>
            rw [hto] at ht hf hn
            refine ⟨good_cons hg ⟨ht.symm, hsh, by simp [h1]⟩, rfl, hw, hnw, ?_, by simp [St.say], hf, hn⟩
            intro q' h
            simp [St.say] at h
            subst h
            exact ⟨n, by simp [St.say, openStrong, h1], h2, h3, h4⟩
          · rw [← hto]; exact same
    · exact ⟨hg, ht, hw, hnw, hs, hns, hf, hn⟩
  | strongCheck =>
    simp only [step]
    split
    · next q hso =>
      obtain ⟨n, h1, h2, h3, h4⟩ := hs q hso
      split
      · unfold strongCheck
        split
        · refine ⟨hg, ht, hw, hnw, ?_, by simp, hf, hn⟩
          intro q' h
          simp at h
          subst h
          exact ⟨n, h1, h2, h3, h4⟩
        · split
          · exact ⟨good_cons hg (by simp [Fits, h1]), ht, hw, hnw, by simp [St.say], fun _ => rfl, hf, hn⟩
          · next hc =>
            have hcur : q.cur ≠ [] := by simpa using hc
            split
            · next hlt =>
              refine ⟨hg, ht, hw, hnw, ?_, by simp, hf, hn⟩
              intro q' h
              simp at h
              subst h
              refine ⟨n, by simpa using h1, h2, hlt, ?_⟩
              intro r hr
              rcases List.mem_cons.1 hr with rfl | hr
              · exact hcur
              · exact h4 r hr
            · next hlt =>
              refine ⟨good_cons hg ⟨?_, ?_, n, by simpa using h1, h2⟩, ht, hw, hnw, by simp [St.say], fun _ => rfl,
                hf, hn⟩
              · simp only [List.length_cons]; omega
              · intro r hr
                rcases List.mem_cons.1 hr with rfl | hr
                · exact hcur
                · exact h4 r hr
      · exact ⟨hg, ht, hw, hnw, hs, hns, hf, hn⟩
    · exact ⟨hg, ht, hw, hnw, hs, hns, hf, hn⟩

theorem inv_run (h : List Op) : Inv (run St.init h) := by
  unfold run
  generalize hs : St.init = s
  have hi : Inv s := hs ▸ inv_init
  clear hs
  induction h generalizing s with
  | nil => exact hi
  | cons op h ih => exact ih _ (inv_step hi op)

/-- **C41.** Every event fits the events before it, whatever the schedule of touches, expiries, clock ticks, nested
commands and cancellations: a wait succeeds only with a touch that is pending at that moment, the five-touch test only
after five rounds with at least one pending short touch each. -/
theorem C41_every_grant_fits (h : List Op) (pre : Log) (n : Nat) (e : Ev) (post : Log)
    (hl : (run St.init h).log = pre ++ (n, e) :: post) : Fits n e post :=
  (inv_run h).good pre n e post hl

/-- **C41.** No touch is accepted twice, be it by waits, applets, the keyboard or the five-touch test. -/
theorem C41_touch_used_once (h : List Op) : ((used (run St.init h).log).map (·.id)).Nodup := by
  have := (inv_run h).nodup
  rw [List.map_append] at this
  exact (List.nodup_append.1 this).2.1

theorem openStrong_sublist : ∀ (l : Log) n ts, openStrong l = some (n, ts) → ts.Sublist (used l)
  | [], _, _, h => by simp [openStrong] at h
  | (k, e) :: l, n, ts, h => by
    cases e with
    | strongBegan => simp [openStrong] at h; rw [h.2]; exact List.nil_sublist _
    | strongOk _ => simp [openStrong] at h
    | strongFail => simp [openStrong] at h
    | strongSaw t =>
      simp only [openStrong, Option.map_eq_some_iff] at h
      obtain ⟨⟨n', ts'⟩, h, h'⟩ := h
      simp at h'
      rw [← h'.2]
      exact (openStrong_sublist l n' ts' h).cons_cons t
    | ok t => exact (openStrong_sublist l n ts h).cons t
    | taken t => exact (openStrong_sublist l n ts h).cons t
    | pressed _ => exact openStrong_sublist l n ts h
    | expired => exact openStrong_sublist l n ts h
    | began _ => exact openStrong_sublist l n ts h
    | denied => exact openStrong_sublist l n ts h
    | cancelled => exact openStrong_sublist l n ts h
    | timeout => exact openStrong_sublist l n ts h
    | keepAlive => exact openStrong_sublist l n ts h

theorem used_append : ∀ (a b : Log), ∃ c, used (a ++ b) = c ++ used b
  | [], b => ⟨[], rfl⟩
  | (k, e) :: a, b => by
    obtain ⟨c, h⟩ := used_append a b
    cases e <;> first
      | exact ⟨c, by simpa [used] using h⟩
      | exact ⟨_ :: c, by simp [used, h]; rfl⟩

/-- **C41.** The five-touch test succeeds only with at least five touches, all of them different. -/
theorem C41_five_touches (h : List Op) (pre : Log) (n : Nat) (rounds : List (List Touch)) (post : Log)
    (hl : (run St.init h).log = pre ++ (n, .strongOk rounds) :: post) :
    5 ≤ rounds.flatten.length ∧ (rounds.flatten.map (·.id)).Nodup := by
  obtain ⟨h5, hne, n0, ho, -⟩ := C41_every_grant_fits h pre n _ post hl
  refine ⟨?_, ?_⟩
  · rw [← h5]
    clear ho h5
    clear hl
    induction rounds with
    | nil => simp
    | cons r rs ih =>
      have h1 : 1 ≤ r.length := List.length_pos_iff.2 (hne r List.mem_cons_self)
      have h2 := ih fun r hr => hne r (List.mem_cons_of_mem _ hr)
      simp only [List.flatten_cons, List.length_append, List.length_cons]
      omega
  · have hu := C41_touch_used_once h
    rw [hl] at hu
    obtain ⟨c, hc⟩ := used_append pre ((n, .strongOk rounds) :: post)
    rw [hc, List.map_append] at hu
    have := (List.nodup_append.1 hu).2.1
    exact this.sublist ((openStrong_sublist post n0 _ ho).map _)

theorem run_snoc (h : List Op) (op : Op) : run St.init (h ++ [op]) = step (run St.init h) op := by
  simp [run]

/-- One step adds at most one event, at the current time; an accepted touch was in the flag. -/
theorem step_log (s : St) (op : Op) : (step s op).log = s.log ∨
    ∃ e, (step s op).log = (s.now, e) :: s.log ∧ ∀ t, (e = .ok t ∨ e = .taken t ∨ e = .strongSaw t) → s.touch = some t := by
  cases op <;> simp only [step, startWait, check, body, poll, strongCheck] <;> (repeat' split) <;>
    first
      | exact .inl rfl
      | exact .inl trivial
      | (refine .inr ⟨_, rfl, ?_⟩; intro t ht; simp_all)

/-- **C41.** If the platform drops touches that are older than a second, whatever accepts a touch does so at most a
second after it was registered. -/
theorem C41_touch_is_recent (h : List Op) (hp : Prompt h) (pre : Log) (n : Nat) (e : Ev) (post : Log) (t : Touch)
    (hl : (run St.init h).log = pre ++ (n, e) :: post) (he : e = .ok t ∨ e = .taken t ∨ e = .strongSaw t) :
    t.time ≤ n ∧ n ≤ t.time + 1000 := by
  induction h using List.reverseRecOn generalizing pre with
  | nil => simp [run, St.init] at hl
  | append_singleton h op ih =>
    have hp' : Prompt h := fun p hpre => hp p (hpre.trans (List.prefix_append h [op]))
    rw [run_snoc] at hl
    rcases step_log (run St.init h) op with hs | ⟨e', hs, ht⟩
    · exact ih hp' pre (hs ▸ hl)
    · rw [hs] at hl
      cases pre with
      | cons p ps => simp at hl; exact ih hp' ps hl.2
      | nil =>
        simp at hl
        obtain ⟨⟨rfl, rfl⟩, rfl⟩ := hl
        have := ht t he
        refine ⟨?_, hp h (List.prefix_append h [op]) t this⟩
        exact ((inv_run h).fresh t (by simp [this])).2

/-- **C41.** A pending touch is accepted, whoever waits. -/
theorem C41_touch_is_accepted (s : St) (w : Wait) (t : Touch) (hw : s.wait = some w) (hb : w.body = false)
    (hs : s.strong = none) (ht : s.touch = some t) :
    (step s .check).log = (s.now, .ok t) :: s.log ∧ (step s .check).touch = none ∧ (step s .check).wait = none := by
  simp [step, hw, hb, hs, check, ht, St.say]

/-- **C41.** Without a touch the loop ends thirty seconds after its start (unless the clock has gone round once). -/
theorem C41_wait_ends (h : List Op) (w : Wait) (n : Nat) (hw : (run St.init h).wait = some w) (hb : w.body = true)
    (hs : (run St.init h).strong = none) (ho : openWait (run St.init h).log = some n)
    (h30 : n + 30000 ≤ (run St.init h).now) (hwrap : (run St.init h).now < n + 2 ^ 32) :
    (step (run St.init h) (.body false)).log = ((run St.init h).now, .timeout) :: (run St.init h).log ∧
    (step (run St.init h) (.body false)).wait = none := by
  obtain ⟨n', h1, h2, h3⟩ := (inv_run h).wait w hw
  rw [ho] at h1
  cases h1
  have : since (run St.init h).tick w.start ≥ 30000 := by
    rw [h3]; unfold since St.tick; omega
  simp [step, hw, hb, hs, body, this, St.say]

/-! ### Examples -/

/-- A touch during the wait, which started before. -/
example : (run St.init [.tick 5000, .wait .ccid, .check, .tick 10, .body false, .press true, .check]).log =
    [(5010, .ok ⟨0, true, 5010⟩), (5010, .pressed ⟨0, true, 5010⟩), (5000, .began .ccid)] := by decide +kernel

/-- A nested wait is refused while the other goes on; a cancellation ends it. -/
example : (run St.init [.wait .hid, .check, .wait .ccid, .body true]).log =
    [(0, .cancelled), (0, .denied), (0, .began .hid)] := by decide +kernel

/-- Thirty seconds without a touch. -/
example : (run St.init [.wait .hid, .check, .tick 150, .body false, .check, .tick 29849, .body false, .check, .tick 1,
    .body false]).log =
    [(30000, .timeout), (29999, .keepAlive), (150, .keepAlive), (0, .began .hid)] := by decide +kernel

/-- One round of the five-touch test. -/
def round : List Op := [.press true, .poll, .strongCheck, .tick 2000, .poll, .strongCheck]

/-- Five touches. -/
example : (run St.init (.strong :: (round ++ round ++ round ++ round ++ round))).log.head? = some (10000, .strongOk
    [[⟨4, true, 8000⟩], [⟨3, true, 6000⟩], [⟨2, true, 4000⟩], [⟨1, true, 2000⟩], [⟨0, true, 0⟩]]) := by
  decide +kernel

/-- Four touches. -/
example : ((run St.init (.strong :: (round ++ round ++ round ++ round ++ [.tick 2000, .poll, .strongCheck]))).log.head?) =
    some (10000, .strongFail) := by decide +kernel

/-- A touch from before the wait is accepted, and the schedule is one of a prompt platform. -/
example : (run St.init [.press true, .tick 900, .wait .ccid, .check]).log =
    [(900, .ok ⟨0, true, 0⟩), (900, .began .ccid), (0, .pressed ⟨0, true, 0⟩)] := by decide +kernel

end Verif.Device
