import Verif.Lemmas.Fs
/-
C100: the file functions all applets use are atomic and keep what was written.
-/
namespace Verif.Fs
open Verif.Spec.Fs

theorem exec_post {α : Type} {m : M α} {s : St} {Q : α → Disk → Ram → Prop} {X : Disk → Prop}
    (h : Post m s.disk s.ram Q X) (out : α → Out) (env : Env) {P : Out → Disk → Ram → Prop}
    (hq : ∀ a d r, Q a d r → P (out a) d r) (hx : ∀ d, X d → P .cut d .init) :
    P (exec m out s env).2 (exec m out s env).1.disk (exec m out s env).1.ram := by
  have h1 := h env
  unfold exec
  cases hm : m ⟨s.disk, s.ram, env⟩ with
  | mk o w =>
    rw [hm] at h1
    cases o with
    | none => exact hx _ h1
    | some a => exact hq _ _ _ h1

/-- What one call does, with the state of the file that is open. -/
theorem step_effect {s : St} (hs : s.ram.h = none) {op : Op} (hin : InRange op) (env : Env) :
    Effect s.disk op (step s op env).2 (step s op env).1.disk ∧
      ((step s op env).1.ram = s.ram ∨ (step s op env).1.ram = .init) := by
  let P : Out → Disk → Ram → Prop := fun o d r => Effect s.disk op o d ∧ (r = s.ram ∨ r = .init)
  cases op with
  | read p off len =>
    exact exec_post (P := P) (readFile_post p off len hs) .bytes env
      (fun a d r ⟨h1, h2, h3⟩ => ⟨⟨h2, by cases a <;> exact h3⟩, .inl h1⟩) fun d h => ⟨⟨h, trivial⟩, .inr rfl⟩
  | write p b off trunc =>
    have hin' : trunc = true → 0 ≤ off ∧ off + (b.length : Nat) ≤ (fileMax : Int) := by
      rintro rfl; exact hin
    exact exec_post (P := P) (writeFile_post p b off trunc hs hin') .code env
      (fun a d r ⟨h1, h2⟩ => ⟨h2, .inl h1⟩) fun d h => ⟨h, .inr rfl⟩
  | append p b =>
    exact exec_post (P := P) (appendFile_post p b hs) .code env
      (fun a d r ⟨h1, h2⟩ => ⟨h2, .inl h1⟩) fun d h => ⟨h, .inr rfl⟩
  | truncate p n =>
    exact exec_post (P := P) (truncateFile_post p n hs) .code env
      (fun a d r ⟨h1, h2⟩ => ⟨h2, .inl h1⟩) fun d h => ⟨h, .inr rfl⟩
  | readAttr p t len =>
    exact exec_post (P := P) (readAttr_post p t len) .attr env
      (fun a d r ⟨h1, h2, h3⟩ => ⟨⟨h2, by cases a <;> exact h3⟩, .inl h1⟩) fun d h => ⟨⟨h, trivial⟩, .inr rfl⟩
  | writeAttr p t b =>
    exact exec_post (P := P) (writeAttr_post p t b) .code env
      (fun a d r ⟨h1, h2⟩ => ⟨h2, .inl h1⟩) fun d h => ⟨h, .inr rfl⟩
  | size p =>
    exact exec_post (P := P) (getFileSize_post p hs) .code env
      (fun a d r ⟨h1, h2, h3⟩ => ⟨⟨h2, h3⟩, .inl h1⟩) fun d h => ⟨⟨h, trivial⟩, .inr rfl⟩
  | rename old new =>
    exact exec_post (P := P) (rename_post old new) .code env
      (fun a d r ⟨h1, h2⟩ => ⟨h2, .inl h1⟩) fun d h => ⟨h, .inr rfl⟩
  | boot => exact ⟨⟨rfl, rfl⟩, .inr rfl⟩

/-- The state is in order: no file is open, nothing undefined has happened. -/
def Fine (s : St) : Prop := s.ram = .init

theorem step_fine {s : St} (hs : Fine s) {op : Op} (hin : InRange op) (env : Env) : Fine (step s op env).1 := by
  have h0 : s.ram.h = none := by rw [show s.ram = .init from hs]; rfl
  rcases (step_effect h0 hin env).2 with h | h
  · exact h.trans hs
  · exact h

theorem run_fine {s : St} (hs : Fine s) {h : List (Op × Env)} (hh : ∀ p ∈ h, InRange p.1) : Fine (run s h).1 := by
  induction h generalizing s with
  | nil => exact hs
  | cons p h ih =>
    obtain ⟨op, env⟩ := p
    exact ih (step_fine hs (hh (op, env) (by simp)) env) fun p hp => hh p (by simp [hp])

/-- C100. Between calls no file is open, whatever failed and whenever power was lost, so that the one buffer
is never used for two files and no file is used that is not open. -/
theorem C100_one_buffer (d : Disk) {h : List (Op × Env)} (hh : ∀ p ∈ h, InRange p.1) :
    (run ⟨d, .init⟩ h).1.ram.h = none ∧ (run ⟨d, .init⟩ h).1.ram.ub = false := by
  have := run_fine (s := ⟨d, .init⟩) rfl hh
  rw [show _ = Ram.init from this]
  exact ⟨rfl, rfl⟩

/-- C100. Each call does what it says or nothing, after any history. -/
theorem C100_all_or_nothing (d : Disk) {h : List (Op × Env)} (hh : ∀ p ∈ h, InRange p.1) {op : Op} (hin : InRange op)
    (env : Env) : let s := (run ⟨d, .init⟩ h).1
    Effect s.disk op (step s op env).2 (step s op env).1.disk := by
  intro s
  have : s.ram = .init := run_fine (s := ⟨d, .init⟩) rfl hh
  exact (step_effect (by rw [this]; rfl) hin env).1

/-- A call that does not report success leaves a file as it is, unless it did not exist. -/
theorem keeps_contents {d d' : Disk} {op : Op} {out : Out} (he : Effect d op out d') {p : String} {f : File} (hp : d p = some f)
    (hno : MayChange p op → out ≠ .code 0) : contents d' p = f.data ∧ d' p ≠ none := by
  have hu : ∀ q, Untouched d q d' → contents d' p = f.data ∧ d' p ≠ none := by
    intro q h
    rcases h with rfl | ⟨hq, _, h⟩
    · simp [contents, hp]
    · rw [show contents d' p = contents d p by
        unfold contents; rw [h p (by rintro rfl; rw [hp] at hq; cases hq)]]
      rw [h p (by rintro rfl; rw [hp] at hq; cases hq)]
      simp [contents, hp]
  have hch : ∀ q good, (q = p → out ≠ .code 0) → Changes d q good out d' → contents d' p = f.data ∧ d' p ≠ none := by
    intro q good hn h
    unfold Changes at h
    split at h
    · rcases h with ⟨rfl, data, _, h⟩ | ⟨_, h⟩
      · have hq : p ≠ q := fun h => hn h.symm rfl
        rw [show contents d' p = contents d p by unfold contents; rw [h.2 p hq], h.2 p hq]
        simp [contents, hp]
      · exact hu q h
    · exact hu q h
    · exact h.elim
  cases op with
  | read q off len => rw [he.1]; simp [contents, hp]
  | size q => rw [he.1]; simp [contents, hp]
  | readAttr q t len => rw [he.1]; simp [contents, hp]
  | boot => rw [he.1]; simp [contents, hp]
  | write q b off trunc => exact hch q _ hno he
  | append q b => exact hch q _ hno he
  | truncate q n => exact hch q _ hno he
  | writeAttr q t b =>
    unfold Effect at he
    simp only at he
    split at he
    · rcases he with ⟨_, _, h1, h2⟩ | ⟨_, rfl⟩
      · by_cases hq : p = q
        · subst hq
          simp [contents, h1, hp]
        · simp [contents, h2 p hq, hp]
      · simp [contents, hp]
    · rw [he]; simp [contents, hp]
    · exact he.elim
  | rename old new =>
    unfold Effect at he
    simp only at he
    split at he
    · rcases he with ⟨rfl, _, h1, h2, h3⟩ | ⟨_, rfl⟩
      · have hn : ¬ (old = p ∨ new = p) := fun h => hno h rfl
        simp only [not_or] at hn
        rw [show contents d' p = contents d p by unfold contents; rw [h3 p (Ne.symm hn.1) (Ne.symm hn.2)],
          h3 p (Ne.symm hn.1) (Ne.symm hn.2)]
        simp [contents, hp]
      · simp [contents, hp]
    · rw [he]; simp [contents, hp]
    · exact he.elim

/-- Histories keep a file that no call reports to have changed. -/
theorem run_keeps {s : St} (hs : Fine s) {h : List (Op × Env)} (hh : ∀ p ∈ h, InRange p.1) {p : String} {b : Bytes}
    (hb : contents s.disk p = b ∧ s.disk p ≠ none) (hno : ∀ e ∈ log s h, MayChange p e.1 → e.2 ≠ .code 0) :
    contents (run s h).1.disk p = b ∧ (run s h).1.disk p ≠ none := by
  induction h generalizing s with
  | nil => exact hb
  | cons x h ih =>
    obtain ⟨op, env⟩ := x
    have hin := hh (op, env) (by simp)
    have h0 : s.ram.h = none := by rw [show s.ram = .init from hs]; rfl
    have he := (step_effect h0 hin env).1
    refine ih (step_fine hs hin env) (fun p hp => hh p (by simp [hp])) ?_ ?_
    · obtain ⟨hb1, hb2⟩ := hb
      cases hp : s.disk p with
      | none => exact absurd hp hb2
      | some f =>
        rw [show b = f.data by rw [← hb1]; simp [contents, hp]]
        exact keeps_contents he hp (hno (op, (step s op env).2) (by simp [log, run]))
    · intro e he
      exact hno e (by simp only [log, run, List.map_cons, List.zip_cons_cons, List.mem_cons]; exact .inr he)

/-- C100. What was written last is what is read: after a call that reported success for `p`, with contents
`b`, and any history in which no call reports to have changed `p` (calls on other files, failed calls on
`p`, power cuts anywhere, restarts), every read that returns data returns those of `b`, and the size is that
of `b`. -/
theorem C100_kept {s : St} (hs : Fine s) {p : String} {b : Bytes} {env0 : Env} (hl : b.length ≤ fileMax)
    (hw : (step s (.write p b 0 true) env0).2 = .code 0)
    {h : List (Op × Env)} (hh : ∀ p ∈ h, InRange p.1)
    (hno : ∀ e ∈ log (step s (.write p b 0 true) env0).1 h, MayChange p e.1 → e.2 ≠ .code 0)
    (off : Int) (len : Nat) (env : Env) :
    let s' := (run (step s (.write p b 0 true) env0).1 h).1
    (∀ d, (step s' (.read p off len) env).2 = .bytes (.ok d) → d = (b.drop off.toNat).take len) ∧
    (∀ n, (step s' (.size p) env).2 = .code n → 0 ≤ n → n = b.length) := by
  intro s'
  have hin : InRange (.write p b 0 true) := ⟨by omega, by omega⟩
  have h0 : s.ram.h = none := by rw [show s.ram = .init from hs]; rfl
  have he := (step_effect h0 hin env0).1
  rw [hw] at he
  have hb : contents (step s (.write p b 0 true) env0).1.disk p = b ∧ (step s (.write p b 0 true) env0).1.disk p ≠ none := by
    rcases he with ⟨_, data, hd, h1, _⟩ | ⟨h, _⟩
    · have : data = b := by
        unfold IsWritten at hd
        split at hd
        · rename_i hb
          rw [hb]; exact hd
        · refine List.ext_getElem? fun i => ?_
          rw [hd i]
          simp
      unfold contents
      rw [h1, this]
      simp
    · exact absurd h (by decide)
  have hf := step_fine hs hin env0
  have hk := run_keeps hf hh hb hno
  have hf' : Fine s' := run_fine hf hh
  have h0' : s'.ram.h = none := by rw [show s'.ram = .init from hf']; rfl
  constructor
  · intro d hd
    have := (step_effect h0' (op := .read p off len) trivial env).1
    unfold Effect at this
    rw [hd] at this
    rw [this.2.2, hk.1]
  · intro n hn h1
    have := (step_effect h0' (op := .size p) trivial env).1
    unfold Effect at this
    rw [hn] at this
    rcases this.2 with h | h
    · omega
    · rw [h.2, hk.1]

theorem holds_eq {d d' : Disk} {p : String} {data : Bytes} (h : Holds d p data d') : d' = setData d p data := by
  funext q
  unfold setData
  split
  · rename_i hq; rw [hq]; exact h.1
  · exact h.2 q (by assumption)

theorem untouched_eq {d d' : Disk} {p : String} (h : Untouched d p d') (hp : d p ≠ none) : d' = d := by
  rcases h with h | h
  · exact h
  · exact absurd h.1 hp

/-- A call that succeeds completely, or not at all, does what an atomic write can do. -/
theorem like_of {m : M Int} {upd : Disk → Option Disk} {d d1 : Disk} (hu : upd d = some d1)
    (hp : ∀ r : Ram, r.h = none → Post m d r (fun e d' _ => (e = 0 ∧ d' = d1) ∨ (e < 0 ∧ d' = d)) (· = d))
    (h1 : ∀ r : Ram, r.h = none → seen (m ⟨d, r, fun _ => .ok⟩) = (some true, d1))
    (h2 : ∀ r : Ram, r.h = none → ∃ env, seen (m ⟨d, r, env⟩) = (some false, d))
    (h3 : ∀ r : Ram, r.h = none → ∃ env, seen (m ⟨d, r, env⟩) = (none, d)) : WritesLike m upd d := by
  intro r hr
  constructor
  · intro env
    have h := hp r hr env
    cases hm : m ⟨d, r, env⟩ with
    | mk o w =>
      rw [hm] at h
      cases o with
      | none => exact ⟨.cut, by simp only [seen, FsM.write, Option.map_none]; rw [h]⟩
      | some e =>
        rcases h with ⟨rfl, h⟩ | ⟨he, h⟩
        · exact ⟨.ok, by simp [seen, FsM.write, h, hu]⟩
        · exact ⟨.fail, by simp [seen, FsM.write, h]; omega⟩
  · intro ft
    cases ft with
    | ok => exact ⟨_, by rw [h1 r hr]; simp [FsM.write, hu]⟩
    | fail => exact (h2 r hr).imp fun env h => by rw [h]; simp [FsM.write]
    | cut => exact (h3 r hr).imp fun env h => by rw [h]; simp [FsM.write]

theorem exists_of {d : Disk} {p : String} (h : d p ≠ none) : ∃ f, d p = some f := by
  cases hp : d p with
  | none => exact absurd hp h
  | some f => exact ⟨f, rfl⟩

theorem written_eq {old b data : Bytes} {off : Nat} (h : IsWritten old off b data) :
    data = if b = [] then old else splice old off b := by
  split
  · rename_i hb
    unfold IsWritten at h
    rwa [if_pos hb] at h
  · rename_i hb
    have h' := isWritten_splice old off hb
    unfold IsWritten at h h'
    rw [if_neg hb] at h h'
    exact List.ext_getElem? fun i => (h i).trans (h' i).symm

theorem resized_eq {old data : Bytes} {n : Nat} (h : IsResized old n data) :
    data = old.take n ++ List.replicate (n - old.length) 0 :=
  List.ext_getElem? fun i => (h i).trans (isResized_of old n i).symm

/-- C100. `write_file` on an existing file is one atomic write. -/
theorem C100_write_is_atomic {d : Disk} {p : String} (hp : d p ≠ none) (b : Bytes) {off : Int} (h0 : 0 ≤ off)
    (h1 : off + (b.length : Nat) ≤ (fileMax : Int)) (trunc : Bool) :
    ∃ data, IsWritten (if trunc then [] else contents d p) off.toNat b data ∧
      WritesLike (writeFile p b off trunc) (fun d => some (setData d p data)) d := by
  let base := if trunc then [] else contents d p
  refine ⟨if b = [] then base else splice base off.toNat b, ?_, like_of rfl ?_ ?_ ?_ ?_⟩
  · by_cases hb : b = []
    · simp only [IsWritten, if_pos hb]; rfl
    · simp only [if_neg hb]; exact isWritten_splice _ _ hb
  · intro r hr
    refine post_mono (writeFile_post p b off trunc hr fun _ => ⟨h0, h1⟩) ?_ fun _ h => untouched_eq h hp
    rintro e d' r' ⟨_, ⟨he, data, hd, hh⟩ | ⟨he, hh⟩⟩
    · left
      rw [holds_eq hh, written_eq hd]
      exact ⟨he, rfl⟩
    · exact .inr ⟨he, untouched_eq hh hp⟩
  · intro r hr
    have h := writeFile_post (d := d) p b off trunc hr (fun _ => ⟨h0, h1⟩) (fun _ => .ok)
    obtain ⟨f, hf⟩ := exists_of hp
    have hoff : ¬ (fileMax : Int) < off := by omega
    have hoff' : ¬ off < 0 := by omega
    have hfit : ¬ fileMax < off.toNat + b.length := by omega
    have : ∃ e w, writeFile p b off trunc ⟨d, r, fun _ => .ok⟩ = (some e, w) ∧ 0 ≤ e := by
      by_cases hb : b = []
      · cases trunc <;>
        simp [writeFile, lfsOpen, lfsSeek, lfsClose, handle, hr, FsM.read, FsM.write, hf, hoff, hoff', hb]
      · have hl : 0 < b.length := by cases b with | nil => exact absurd rfl hb | cons => simp
        have hn : ¬ ((b.length : Nat) : Int) < 0 := by omega
        cases trunc <;>
        simp [writeFile, lfsOpen, lfsSeek, lfsWrite, lfsClose, handle, hr, FsM.read, FsM.write, hf, hoff, hoff', hb, hl, hfit, hn]
    obtain ⟨e, w, hm, he⟩ := this
    rw [hm] at h ⊢
    rcases h with ⟨_, ⟨rfl, data, hd, hh⟩ | ⟨he', _⟩⟩
    · simp only [seen, Option.map_some]
      rw [holds_eq hh, written_eq hd]
      rfl
    · omega
  · intro r hr
    exact ⟨fun _ => .fail, by simp [seen, writeFile, lfsOpen, hr, FsM.read, eIo]⟩
  · intro r hr
    exact ⟨fun _ => .cut, by simp [seen, writeFile, lfsOpen, hr, FsM.read]⟩

/-- C100. `append_file` on an existing file is one atomic write. -/
theorem C100_append_is_atomic {d : Disk} {p : String} (hp : d p ≠ none) (b : Bytes)
    (h1 : (contents d p).length + b.length ≤ fileMax) :
    WritesLike (appendFile p b) (fun d => some (setData d p (contents d p ++ b))) d := by
  refine like_of rfl ?_ ?_ ?_ ?_
  · intro r hr
    refine post_mono (appendFile_post p b hr) ?_ fun _ h => untouched_eq h hp
    rintro e d' r' ⟨_, ⟨he, data, hd, hh⟩ | ⟨he, hh⟩⟩
    · left
      rw [holds_eq hh, hd]
      exact ⟨he, rfl⟩
    · exact .inr ⟨he, untouched_eq hh hp⟩
  · intro r hr
    have h := appendFile_post (d := d) p b hr (fun _ => .ok)
    obtain ⟨f, hf⟩ := exists_of hp
    have hc : contents d p = f.data := by simp [contents, hf]
    rw [hc] at h1
    have h2 : ¬ ((f.data.length : Nat) : Int) < 0 := by omega
    have h3 : ¬ (fileMax : Int) < ((f.data.length : Nat) : Int) := by omega
    have h3' : ¬ fileMax < f.data.length := by omega
    have h4 : ¬ fileMax < f.data.length + b.length := by omega
    have : ∃ e w, appendFile p b ⟨d, r, fun _ => .ok⟩ = (some e, w) ∧ 0 ≤ e := by
      by_cases hb : b = []
      · simp [appendFile, lfsOpen, lfsSeekEnd, lfsSeek, lfsClose, handle, hr, FsM.read, FsM.write, hf, h2, h3, h3', hb]
      · have hl : 0 < b.length := by cases b with | nil => exact absurd rfl hb | cons => simp
        have hn : ¬ ((b.length : Nat) : Int) < 0 := by omega
        simp [appendFile, lfsOpen, lfsSeekEnd, lfsSeek, lfsWrite, lfsClose, handle, hr, FsM.read, FsM.write, hf, h2, h3, h3', hb,
          hl, h4, hn]
    obtain ⟨e, w, hm, he⟩ := this
    rw [hm] at h ⊢
    rcases h with ⟨_, ⟨rfl, data, hd, hh⟩ | ⟨he', _⟩⟩
    · simp only [seen, Option.map_some]
      rw [holds_eq hh, hd]
      rfl
    · omega
  · intro r hr
    exact ⟨fun _ => .fail, by simp [seen, appendFile, lfsOpen, hr, FsM.read, eIo]⟩
  · intro r hr
    exact ⟨fun _ => .cut, by simp [seen, appendFile, lfsOpen, hr, FsM.read]⟩

/-- C100. `truncate_file` on an existing file is one atomic write. -/
theorem C100_truncate_is_atomic {d : Disk} {p : String} (hp : d p ≠ none) {n : Nat} (h1 : n ≤ fileMax) :
    ∃ data, IsResized (contents d p) n data ∧ WritesLike (truncateFile p n) (fun d => some (setData d p data)) d := by
  refine ⟨_, isResized_of _ _, like_of rfl ?_ ?_ ?_ ?_⟩
  · intro r hr
    refine post_mono (truncateFile_post p n hr) ?_ fun _ h => untouched_eq h hp
    rintro e d' r' ⟨_, ⟨he, data, hd, hh⟩ | ⟨he, hh⟩⟩
    · left
      rw [holds_eq hh, resized_eq hd]
      exact ⟨he, rfl⟩
    · exact .inr ⟨he, untouched_eq hh hp⟩
  · intro r hr
    have h := truncateFile_post (d := d) p n hr (fun _ => .ok)
    obtain ⟨f, hf⟩ := exists_of hp
    have h3 : ¬ fileMax < n := by omega
    have : ∃ e w, truncateFile p n ⟨d, r, fun _ => .ok⟩ = (some e, w) ∧ 0 ≤ e := by
      by_cases hl : n = f.data.length
      · have h3' : ¬ fileMax < f.data.length := hl ▸ h3
        simp [truncateFile, lfsOpen, lfsTruncate, lfsClose, handle, hr, FsM.read, FsM.write, hf, h3', hl]
      · simp [truncateFile, lfsOpen, lfsTruncate, lfsClose, handle, hr, FsM.read, FsM.write, hf, h3, hl]
    obtain ⟨e, w, hm, he⟩ := this
    rw [hm] at h ⊢
    rcases h with ⟨_, ⟨rfl, data, hd, hh⟩ | ⟨he', _⟩⟩
    · simp only [seen, Option.map_some]
      rw [holds_eq hh, resized_eq hd]
      rfl
    · omega
  · intro r hr
    exact ⟨fun _ => .fail, by simp [seen, truncateFile, lfsOpen, hr, FsM.read, eIo]⟩
  · intro r hr
    exact ⟨fun _ => .cut, by simp [seen, truncateFile, lfsOpen, hr, FsM.read]⟩

/-- C100. `write_attr` is one atomic write; it fails if the file does not exist. -/
theorem C100_write_attr_is_atomic (d : Disk) (p : String) (t : Byte) {b : Bytes} (h1 : b.length ≤ attrMax) :
    WritesLike (writeAttr p t b) (fun d => (d p).map fun f => fun q =>
      if q = p then some ⟨f.data, fun u => if u = t then some b else f.attr u⟩ else d q) d := by
  have h1' : ¬ attrMax < b.length := by omega
  intro r hr
  cases hp : d p with
  | none =>
    constructor
    · intro env
      cases he : env 0 with
      | cut => exact ⟨.cut, by simp [seen, writeAttr, lfsSetAttr, FsM.read, FsM.write, h1', he]⟩
      | ok => exact ⟨.ok, by simp [seen, writeAttr, lfsSetAttr, FsM.read, FsM.write, h1', hp, he, eNoEnt]⟩
      | fail => exact ⟨.fail, by simp [seen, writeAttr, lfsSetAttr, FsM.read, FsM.write, h1', he, eIo]⟩
    · intro ft
      refine ⟨fun _ => ft, ?_⟩
      cases ft <;> simp [seen, writeAttr, lfsSetAttr, FsM.read, FsM.write, h1', hp, eNoEnt, eIo]
  | some f =>
    constructor
    · intro env
      cases he : env 0 with
      | cut => exact ⟨.cut, by simp [seen, writeAttr, lfsSetAttr, FsM.read, FsM.write, h1', he]⟩
      | fail => exact ⟨.fail, by simp [seen, writeAttr, lfsSetAttr, FsM.read, FsM.write, h1', he, eIo]⟩
      | ok =>
        cases he1 : env 1 with
        | cut => exact ⟨.cut, by simp [seen, writeAttr, lfsSetAttr, FsM.read, FsM.write, h1', he, he1, hp]⟩
        | fail => exact ⟨.fail, by simp [seen, writeAttr, lfsSetAttr, FsM.read, FsM.write, h1', he, he1, hp, eIo]⟩
        | ok => exact ⟨.ok, by simp [seen, writeAttr, lfsSetAttr, FsM.read, FsM.write, h1', he, he1, hp]; rfl⟩
    · intro ft
      refine ⟨fun _ => ft, ?_⟩
      cases ft <;> simp [seen, writeAttr, lfsSetAttr, FsM.read, FsM.write, h1', hp, eIo]
      rfl

/-- C100. `fs_rename` of an existing file is one atomic write. -/
theorem C100_rename_is_atomic {d : Disk} {old new : String} (hp : d old ≠ none) (hne : old ≠ new) :
    WritesLike (fsRename old new) (fun d => some fun q => if q = new then d old else if q = old then none else d q) d := by
  obtain ⟨f, hf⟩ := exists_of hp
  intro r hr
  constructor
  · intro env
    cases he : env 0 with
    | cut => exact ⟨.cut, by simp [seen, fsRename, lfsRename, FsM.read, FsM.write, he]⟩
    | fail => exact ⟨.fail, by simp [seen, fsRename, lfsRename, FsM.read, FsM.write, he, eIo]⟩
    | ok =>
      cases he1 : env 1 with
      | cut => exact ⟨.cut, by simp [seen, fsRename, lfsRename, FsM.read, FsM.write, he, he1, hf, hne]⟩
      | fail => exact ⟨.fail, by simp [seen, fsRename, lfsRename, FsM.read, FsM.write, he, he1, hf, hne, eIo]⟩
      | ok => exact ⟨.ok, by simp [seen, fsRename, lfsRename, FsM.read, FsM.write, he, he1, hf, hne]⟩
  · intro ft
    refine ⟨fun _ => ft, ?_⟩
    cases ft <;> simp [seen, fsRename, lfsRename, FsM.read, FsM.write, hf, hne, eIo]

/-- A reading call that gives the right data or none does what an atomic read can do. -/
theorem reads_of {α : Type} {m : M (Except Int α)} {look : Disk → Option α} {d : Disk} {a : α} (hl : look d = some a)
    (hp : ∀ r : Ram, r.h = none → Post m d r (fun e d' _ => d' = d ∧ match e with | .ok b => b = a | .error _ => True) (· = d))
    (h1 : ∀ r : Ram, r.h = none → ∃ env, seenE (m ⟨d, r, env⟩) = (some (some a), d))
    (h2 : ∀ r : Ram, r.h = none → ∃ env, seenE (m ⟨d, r, env⟩) = (some none, d))
    (h3 : ∀ r : Ram, r.h = none → ∃ env, seenE (m ⟨d, r, env⟩) = (none, d)) : ReadsLike m look d := by
  intro r hr
  constructor
  · intro env
    have h := hp r hr env
    cases hm : m ⟨d, r, env⟩ with
    | mk o w =>
      rw [hm] at h
      cases o with
      | none => exact ⟨.cut, by simp only [seenE, FsM.read, Option.map_none]; rw [h]⟩
      | some e =>
        obtain ⟨h4, h5⟩ := h
        cases e with
        | ok b => exact ⟨.ok, by simp [seenE, FsM.read, h4, hl, h5, Except.toOption]⟩
        | error e => exact ⟨.fail, by simp [seenE, FsM.read, h4, Except.toOption]⟩
  · intro ft
    cases ft with
    | ok => exact (h1 r hr).imp fun env h => by rw [h]; simp [FsM.read, hl]
    | fail => exact (h2 r hr).imp fun env h => by rw [h]; simp [FsM.read]
    | cut => exact (h3 r hr).imp fun env h => by rw [h]; simp [FsM.read]

/-- C100. `read_file` of an existing file is one atomic read. -/
theorem C100_read_is_atomic {d : Disk} {p : String} (hp : d p ≠ none) {off : Int} (h0 : 0 ≤ off) (h1 : off ≤ (fileMax : Int))
    (len : Nat) :
    ReadsLike (readFile p off len) (fun d => (d p).map fun f => (f.data.drop off.toNat).take len) d := by
  obtain ⟨f, hf⟩ := exists_of hp
  have hc : contents d p = f.data := by simp [contents, hf]
  have h2 : ¬ off < 0 := by omega
  have h3 : ¬ (fileMax : Int) < off := by omega
  refine reads_of (a := (f.data.drop off.toNat).take len) (by simp [hf]) ?_ ?_ ?_ ?_
  · intro r hr
    refine post_mono (readFile_post p off len hr) ?_ fun _ h => h
    rintro e d' r' ⟨_, hd, h⟩
    refine ⟨hd, ?_⟩
    cases e with
    | ok b => rw [hc] at h; exact h.2
    | error e => trivial
  · intro r hr
    exact ⟨fun _ => .ok, by simp [seenE, readFile, lfsOpen, lfsSeek, lfsRead, lfsClose, handle, hr, FsM.read, hf, h2, h3, Except.toOption]⟩
  · intro r hr
    exact ⟨fun _ => .fail, by simp [seenE, readFile, lfsOpen, hr, FsM.read, eIo, Except.toOption]⟩
  · intro r hr
    exact ⟨fun _ => .cut, by simp [seenE, readFile, lfsOpen, hr, FsM.read]⟩

/-- C100. Without faults, existing files are read, and `get_file_size` gives the number of bytes; attributes
are read. -/
theorem C100_read_answers {s : St} (hs : Fine s) {p : String} (hp : s.disk p ≠ none) {off : Int} (h0 : 0 ≤ off)
    (h1 : off ≤ (fileMax : Int)) (len : Nat) {t : Byte} {a : Bytes} (ha : attrs s.disk p t = some a) :
    (step s (.read p off len) fun _ => .ok).2 = .bytes (.ok (((contents s.disk p).drop off.toNat).take len)) ∧
    (step s (.size p) fun _ => .ok).2 = .code (contents s.disk p).length ∧
    (step s (.readAttr p t len) fun _ => .ok).2 = .attr (.ok (a.length, a.take len ++ List.replicate (len - a.length) 0)) := by
  obtain ⟨f, hf⟩ := exists_of hp
  have hr : s.ram.h = none := by rw [show s.ram = .init from hs]; rfl
  have hc : contents s.disk p = f.data := by simp [contents, hf]
  have ha' : f.attr t = some a := by simpa [attrs, hf] using ha
  have h2 : ¬ off < 0 := by omega
  have h3 : ¬ (fileMax : Int) < off := by omega
  have h4 : ¬ ((f.data.length : Nat) : Int) < 0 := by omega
  refine ⟨?_, ?_, ?_⟩
  · simp [step, exec, readFile, lfsOpen, lfsSeek, lfsRead, lfsClose, handle, hr, FsM.read, hf, h2, h3, hc]
  · simp [step, exec, getFileSize, lfsOpen, lfsSize, lfsClose, handle, hr, FsM.read, hf, hc, h4]
  · simp [step, exec, readAttr, lfsGetAttr, FsM.read, hf, ha']

/-- C100. Without faults, writes within the limits succeed, also when the file does not exist. -/
theorem C100_write_answers {s : St} (hs : Fine s) (p : String) (b : Bytes) {off : Int} (h0 : 0 ≤ off)
    (h1 : off + (b.length : Nat) ≤ (fileMax : Int)) (trunc : Bool) :
    (step s (.write p b off trunc) fun _ => .ok).2 = .code 0 := by
  have hr : s.ram.h = none := by rw [show s.ram = .init from hs]; rfl
  have hoff : ¬ (fileMax : Int) < off := by omega
  have hoff' : ¬ off < 0 := by omega
  have hfit : ¬ fileMax < off.toNat + b.length := by omega
  have hn : ¬ ((b.length : Nat) : Int) < 0 := by omega
  cases hf : s.disk p with
  | none =>
    by_cases hb : b = []
    · cases trunc <;>
      simp [step, exec, writeFile, lfsOpen, lfsSeek, lfsClose, handle, hr, FsM.read, FsM.write, hf, hoff, hoff', hb]
    · have hl : 0 < b.length := by cases b with | nil => exact absurd rfl hb | cons => simp
      cases trunc <;>
      simp [step, exec, writeFile, lfsOpen, lfsSeek, lfsWrite, lfsClose, handle, hr, FsM.read, FsM.write, hf, hoff, hoff', hl, hfit,
        hn, Disk.put]
  | some f =>
    by_cases hb : b = []
    · cases trunc <;>
      simp [step, exec, writeFile, lfsOpen, lfsSeek, lfsClose, handle, hr, FsM.read, FsM.write, hf, hoff, hoff', hb]
    · have hl : 0 < b.length := by cases b with | nil => exact absurd rfl hb | cons => simp
      cases trunc <;>
      simp [step, exec, writeFile, lfsOpen, lfsSeek, lfsWrite, lfsClose, handle, hr, FsM.read, FsM.write, hf, hoff, hoff', hl, hfit,
        hn]

end Verif.Fs
