import Verif.Spec.Fs
/-
What the functions of `Verif.Model.Fs` do, over all faults.
-/
namespace Verif.Fs
open Verif.Spec.Fs

/-- `Post m d r Q X`: under any faults `m` ends with `Q`, or power is lost with `X`. -/
def Post {α : Type} (m : M α) (d : Disk) (r : Ram) (Q : α → Disk → Ram → Prop) (X : Disk → Prop) : Prop :=
  ∀ env, match m ⟨d, r, env⟩ with
    | (some a, w) => Q a w.flash w.ram
    | (none, w) => X w.flash

variable {α β : Type} {d : Disk} {r : Ram} {Q : α → Disk → Ram → Prop} {X : Disk → Prop}

theorem post_pure {a : α} (h : Q a d r) : Post (pure a) d r Q X := fun _ => h

theorem post_bind {m : M β} {g : β → M α} (h : Post m d r (fun b d' r' => Post (g b) d' r' Q X) X) :
    Post (m >>= g) d r Q X := by
  intro env
  have h1 := h env
  rw [FsM.bind_eq]
  cases hm : m ⟨d, r, env⟩ with
  | mk o w =>
    rw [hm] at h1
    cases o with
    | none => exact h1
    | some b => exact h1 w.env

theorem post_mono {m : M α} {Q' : α → Disk → Ram → Prop} {X' : Disk → Prop} (h : Post m d r Q X)
    (hq : ∀ a d r, Q a d r → Q' a d r) (hx : ∀ d, X d → X' d) : Post m d r Q' X' := by
  intro env
  have h1 := h env
  cases hm : m ⟨d, r, env⟩ with
  | mk o w =>
    rw [hm] at h1
    cases o with
    | none => exact hx _ h1
    | some b => exact hq _ _ _ h1

theorem post_get {Q : Ram → Disk → Ram → Prop} (h : Q r d r) : Post FsM.getRam d r Q X := fun _ => h

theorem post_mod {g : Ram → Ram} {Q : Unit → Disk → Ram → Prop} (h : Q () d (g r)) : Post (FsM.modRam g) d r Q X :=
  fun _ => h

theorem post_read {look : Disk → Option β} {Q : Option β → Disk → Ram → Prop} (h1 : Q (look d) d r) (h2 : Q none d r)
    (h3 : X d) : Post (FsM.read look) d r Q X := by
  intro env
  rw [FsM.read_eq]
  split <;> rename_i h <;> split at h <;> cases h <;> assumption

theorem post_write {upd : Disk → Option Disk} {Q : Bool → Disk → Ram → Prop} (h1 : ∀ d', upd d = some d' → Q true d' r)
    (h2 : Q false d r) (h3 : X d) : Post (FsM.write upd) d r Q X := by
  intro env
  rw [FsM.write_eq]
  simp only
  cases env 0 with
  | ok =>
    cases hu : upd d with
    | none => exact h2
    | some d' => exact h1 d' hu
  | fail => exact h2
  | cut => exact h3

theorem put_holds (d : Disk) (p : String) (f : File) (hf : f.attr = attrs d p) : Holds d p f.data (d.put p f) := by
  constructor
  · simp [Disk.put, ← hf]
  · intro q hq; simp [Disk.put, hq]

/-- The state between opening and closing: the file exists on flash as it did before, or empty if it did
not exist. -/
structure Opened (d : Disk) (p : String) (d' : Disk) : Prop where
  un : Untouched d p d'
  ex : ∃ f, d' p = some f ∧ f.attr = attrs d p ∧ f.data = contents d p
  rest : ∀ q, q ≠ p → d' q = d q

/-- `lfsOpen` for writing. -/
theorem open_create (p : String) (trunc : Bool) (hr : r.h = none) :
    Post (lfsOpen p true trunc) d r
      (fun e d' r' => (e < 0 ∧ Untouched d p d' ∧ r' = r) ∨
        (e = 0 ∧ Opened d p d' ∧ ∃ dirty, (dirty = true → trunc = true) ∧
          (dirty = false → (if trunc then [] else contents d p) = contents d p) ∧
          r' = { r with h := some ⟨p, if trunc then [] else contents d p, 0, dirty, false⟩ }))
      (Untouched d p) := by
  unfold lfsOpen
  refine post_bind (post_get ?_)
  simp only [hr, Option.isSome_none, Bool.false_eq_true, if_false]
  refine post_bind (post_read ?_ (post_pure (.inl ⟨by decide, .inl rfl, rfl⟩)) (.inl rfl))
  cases hp : d p with
  | none =>
    simp only [Bool.not_true, Bool.false_eq_true, if_false]
    refine post_bind (post_write ?_ (post_pure (.inl ⟨by decide, .inl rfl, rfl⟩)) (.inl rfl))
    intro d' hd
    cases hd
    simp only [if_true]
    have hh : Holds d p [] (d.put p .empty) := put_holds d p .empty (by simp [attrs, hp, File.empty])
    refine post_bind (post_mod (post_pure (.inr ⟨rfl, ⟨.inr ⟨hp, hh⟩, ⟨.empty, ?_, ?_, ?_⟩, hh.2⟩, false, ?_, ?_, ?_⟩)))
    · simp [Disk.put]
    · simp [attrs, hp, File.empty]
    · simp [contents, hp, File.empty]
    · intro h; cases h
    · intro _; simp [contents, hp]
    · simp [contents, hp]
  | some f =>
    refine post_bind (post_mod (post_pure (.inr ⟨rfl, ⟨.inl rfl, ⟨f, hp, ?_, ?_⟩, fun _ _ => rfl⟩, trunc, id, ?_, ?_⟩)))
    · simp [attrs, hp]
    · simp [contents, hp]
    · rintro rfl; simp
    · simp [contents, hp]

/-- `lfsOpen` for reading. -/
theorem open_read (p : String) (hr : r.h = none) :
    Post (lfsOpen p false false) d r
      (fun e d' r' => d' = d ∧ ((e < 0 ∧ r' = r) ∨
        (e = 0 ∧ d p ≠ none ∧ r' = { r with h := some ⟨p, contents d p, 0, false, false⟩ })))
      (· = d) := by
  unfold lfsOpen
  refine post_bind (post_get ?_)
  simp only [hr, Option.isSome_none, Bool.false_eq_true, if_false]
  refine post_bind (post_read ?_ (post_pure ⟨rfl, .inl ⟨by decide, rfl⟩⟩) rfl)
  cases hp : d p with
  | none =>
    simp only [Bool.not_false, if_true]
    exact post_pure ⟨rfl, .inl ⟨by decide, rfl⟩⟩
  | some f =>
    refine post_bind (post_mod (post_pure ⟨rfl, .inr ⟨rfl, by simp, ?_⟩⟩))
    simp [contents, hp]

theorem handle_post {h : Handle} (hr : r.h = some h) {Q : Option Handle → Disk → Ram → Prop} (hq : Q (some h) d r) :
    Post handle d r Q X := by
  unfold handle
  refine post_bind (post_get ?_)
  rw [hr]
  exact post_pure hq

/-- `lfsClose` of a file that is not to be committed. -/
theorem close_clean {h : Handle} (hr : r.h = some h) (hc : h.erred = true ∨ h.dirty = false) :
    Post lfsClose d r (fun e d' r' => e = 0 ∧ d' = d ∧ r' = { r with h := none }) X := by
  unfold lfsClose
  refine post_bind (handle_post hr ?_)
  refine post_bind (post_mod ?_)
  rw [if_pos (by rcases hc with hc | hc <;> simp [hc])]
  exact post_pure ⟨rfl, rfl, rfl⟩

/-- `lfsClose` of a changed file. -/
theorem close_dirty {h : Handle} (hr : r.h = some h) (hc : h.erred = false) (hd : h.dirty = true)
    {d0 : Disk} (ho : Opened d0 h.path d) :
    Post lfsClose d r (fun e d' r' => r' = { r with h := none } ∧
      ((e = 0 ∧ Holds d0 h.path h.data d') ∨ (e < 0 ∧ Untouched d0 h.path d'))) (Untouched d0 h.path) := by
  unfold lfsClose
  refine post_bind (handle_post hr ?_)
  refine post_bind (post_mod ?_)
  rw [if_neg (by simp [hc, hd])]
  refine post_bind (post_write ?_ (post_pure ⟨rfl, .inr ⟨by decide, ho.un⟩⟩) ho.un)
  intro d' hu
  obtain ⟨f, hf, ha, _⟩ := ho.ex
  rw [hf] at hu
  cases hu
  refine post_pure ⟨rfl, .inl ⟨rfl, ?_, ?_⟩⟩
  · simp [Disk.put, ha]
  · intro q hq; simp [Disk.put, hq, ho.rest q hq]

theorem seek_ok {h : Handle} (hr : r.h = some h) {off : Int} (h0 : 0 ≤ off) (h1 : off ≤ (fileMax : Int)) :
    Post (lfsSeek off) d r (fun e d' r' => e = off ∧ d' = d ∧ r' = { r with h := some { h with pos := off.toNat } }) X := by
  unfold lfsSeek
  refine post_bind (handle_post hr ?_)
  simp only
  rw [if_neg (by simp; omega)]
  exact post_bind (post_mod (post_pure ⟨rfl, rfl, rfl⟩))

theorem seek_bad {h : Handle} (hr : r.h = some h) {off : Int} (h0 : ¬ (0 ≤ off ∧ off ≤ (fileMax : Int))) :
    Post (lfsSeek off) d r (fun e d' r' => e < 0 ∧ d' = d ∧ r' = r) X := by
  unfold lfsSeek
  refine post_bind (handle_post hr ?_)
  simp only
  rw [if_pos (by simp; omega)]
  exact post_pure ⟨by decide, rfl, rfl⟩

theorem write_post {h : Handle} (hr : r.h = some h) (b : Bytes) {X : Disk → Prop} (hx : X d) :
    Post (lfsWrite b) d r (fun e d' r' => d' = d ∧
      ((e < 0 ∧ fileMax < h.pos + b.length ∧ r' = r) ∨ (e < 0 ∧ r' = { r with h := some { h with erred := true } }) ∨
        (0 ≤ e ∧ r' = { r with h := some { h with data := splice h.data h.pos b, pos := h.pos + b.length, dirty := true } })))
      X := by
  unfold lfsWrite
  refine post_bind (handle_post hr ?_)
  simp only
  split
  · exact post_pure ⟨rfl, .inl ⟨by decide, by assumption, rfl⟩⟩
  · refine post_bind (post_read ?_ ?_ hx)
    · exact post_bind (post_mod (post_pure ⟨rfl, .inr (.inr ⟨by omega, rfl⟩)⟩))
    · exact post_bind (post_mod (post_pure ⟨rfl, .inr (.inl ⟨by decide, rfl⟩)⟩))

theorem isWritten_splice (old : Bytes) (pos : Nat) {b : Bytes} (hb : b ≠ []) : IsWritten old pos b (splice old pos b) := by
  unfold IsWritten
  rw [if_neg hb]
  intro i
  unfold splice
  have hl : 0 < b.length := by cases b with | nil => exact absurd rfl hb | cons => simp
  rw [List.append_assoc, List.append_assoc, List.getElem?_append, List.getElem?_append, List.getElem?_append]
  simp only [List.length_take, List.length_replicate, List.getElem?_take, List.getElem?_replicate, List.getElem?_drop]
  by_cases h1 : pos ≤ i
  · have e1 : ¬ i < min pos old.length := by omega
    have e2 : ¬ i - min pos old.length < pos - old.length := by omega
    have e3 : i - min pos old.length - (pos - old.length) = i - pos := by omega
    rw [if_neg e1, if_neg e2, e3]
    by_cases h2 : i < pos + b.length
    · rw [if_pos (by omega), if_pos ⟨h1, h2⟩]
    · rw [if_neg (by omega), if_neg (by omega), show pos + b.length + (i - pos - b.length) = i by omega]
      split
      · rfl
      · rw [if_neg (by omega)]
        exact List.getElem?_eq_none (by omega)
  · rw [if_neg (by omega : ¬ (pos ≤ i ∧ i < pos + b.length))]
    by_cases h2 : i < old.length
    · rw [if_pos (by omega), if_pos (by omega), if_pos h2]
    · rw [if_neg (by omega), if_pos (by omega), if_pos (by omega), if_neg h2, if_pos (by omega)]

theorem opened_holds {p : String} {d' : Disk} (h : Opened d p d') {data : Bytes} (hd : data = contents d p) :
    Holds d p data d' := by
  obtain ⟨f, hf, ha, hc⟩ := h.ex
  refine ⟨?_, h.rest⟩
  rw [hf, hd, ← ha, ← hc]

/-- The tail of the writing functions. -/
theorem finish_post {d0 : Disk} {h : Handle} (hr : r.h = some h) (hp : Opened d0 h.path d) (b : Bytes)
    (hd : h.dirty = false → h.data = contents d0 h.path) (he : h.erred = false)
    (hin : h.dirty = true → h.pos + b.length ≤ fileMax) :
    Post (do
        if b.length > 0 then
          let err ← lfsWrite b
          if err < 0 then
            let _ ← lfsClose
            return err
        let err ← lfsClose
        if err < 0 then return err
        return 0 : M Int) d r
      (fun e d' r' => r' = { r with h := none } ∧
        ((e = 0 ∧ Holds d0 h.path (if b = [] then h.data else splice h.data h.pos b) d') ∨ (e < 0 ∧ Untouched d0 h.path d')))
      (Untouched d0 h.path) := by
  have fin : ∀ {r : Ram} {h : Handle} {d : Disk}, r.h = some h → Opened d0 h.path d → h.erred = false →
      (h.dirty = false → h.data = contents d0 h.path) →
      Post (do
        let err ← lfsClose
        if err < 0 then return err
        return 0 : M Int) d r
      (fun e d' r' => r' = { r with h := none } ∧
        ((e = 0 ∧ Holds d0 h.path h.data d') ∨ (e < 0 ∧ Untouched d0 h.path d')))
      (Untouched d0 h.path) := by
    intro r h d hr hp he hd
    refine post_bind ?_
    cases hdi : h.dirty with
    | true =>
      refine post_mono (close_dirty hr he hdi hp) ?_ fun _ h => h
      rintro e d' r' ⟨rfl, ⟨rfl, h⟩ | ⟨he, h⟩⟩
      · exact post_pure ⟨rfl, .inl ⟨rfl, h⟩⟩
      · rw [if_pos he]
        exact post_pure ⟨rfl, .inr ⟨he, h⟩⟩
    | false =>
      refine post_mono (close_clean hr (.inr hdi) (X := fun _ => False)) ?_ fun _ h => h.elim
      rintro e d' r' ⟨rfl, rfl, rfl⟩
      exact post_pure ⟨rfl, .inl ⟨rfl, opened_holds hp (hd hdi)⟩⟩
  by_cases hb : b = []
  · subst hb
    simp only [List.length_nil, gt_iff_lt, Nat.lt_irrefl, if_false, if_true]
    exact fin hr hp he hd
  · have hl : b.length > 0 := by cases b with | nil => exact absurd rfl hb | cons => simp
    simp only [if_pos hl, if_neg hb]
    refine post_bind (post_mono (write_post hr b hp.un) ?_ fun _ h => h)
    rintro e d' r' ⟨rfl, ⟨he', hf, rfl⟩ | ⟨he', rfl⟩ | ⟨he', rfl⟩⟩
    · rw [if_pos he']
      refine post_bind (post_mono (close_clean hr (.inr ?_) (X := fun _ => False)) ?_ fun _ h => h.elim)
      · cases hdi : h.dirty with
        | false => rfl
        | true => have := hin hdi; omega
      · rintro _ _ _ ⟨rfl, rfl, rfl⟩
        exact post_pure ⟨rfl, .inr ⟨he', hp.un⟩⟩
    · rw [if_pos he']
      refine post_bind (post_mono (close_clean rfl (.inl rfl) (X := fun _ => False)) ?_ fun _ h => h.elim)
      rintro _ _ _ ⟨rfl, rfl, rfl⟩
      exact post_pure ⟨rfl, .inr ⟨he', hp.un⟩⟩
    · rw [if_neg (by omega)]
      exact fin (h := { h with data := splice h.data h.pos b, pos := h.pos + b.length, dirty := true }) rfl hp he
        fun h => by cases h

theorem ram_eq (hr : r.h = none) : { r with h := none } = r := by
  cases r; simp at hr; simp [hr]

theorem writeFile_post (p : String) (b : Bytes) (off : Int) (trunc : Bool) (hr : r.h = none)
    (hin : trunc = true → 0 ≤ off ∧ off + (b.length : Nat) ≤ (fileMax : Int)) :
    Post (writeFile p b off trunc) d r
      (fun e d' r' => r' = r ∧
        ((e = 0 ∧ ∃ data, IsWritten (if trunc then [] else contents d p) off.toNat b data ∧ Holds d p data d') ∨
          (e < 0 ∧ Untouched d p d')))
      (Untouched d p) := by
  unfold writeFile
  refine post_bind (post_mono (open_create p trunc hr) ?_ fun _ h => h)
  rintro e d1 r1 (⟨he, hu, rfl⟩ | ⟨rfl, ho, dirty, hdt, hdf, rfl⟩)
  · rw [if_pos he]
    exact post_pure ⟨rfl, .inr ⟨he, hu⟩⟩
  · rw [if_neg (by decide)]
    by_cases hoff : 0 ≤ off ∧ off ≤ (fileMax : Int)
    · refine post_bind (post_mono (seek_ok rfl hoff.1 hoff.2 (X := fun _ => False)) ?_ fun _ h => h.elim)
      rintro e d' r' ⟨rfl, rfl, rfl⟩
      rw [if_neg (by omega)]
      refine post_mono (finish_post (h := ⟨p, if trunc then [] else contents d p, e.toNat, dirty, false⟩) rfl ho b hdf rfl ?_)
        ?_ fun _ h => h
      · intro h
        have := hin (hdt h)
        simp only
        omega
      · rintro e' d' r' ⟨rfl, h⟩
        refine ⟨ram_eq hr, ?_⟩
        rcases h with ⟨rfl, h⟩ | h
        · refine .inl ⟨rfl, _, ?_, h⟩
          by_cases hb : b = []
          · simp [hb, IsWritten]
          · simp only [if_neg hb]
            exact isWritten_splice _ _ hb
        · exact .inr h
    · refine post_bind (post_mono (seek_bad rfl hoff (X := fun _ => False)) ?_ fun _ h => h.elim)
      rintro e d' r' ⟨he, rfl, rfl⟩
      rw [if_pos he]
      refine post_bind (post_mono (close_clean rfl (.inr ?_) (X := fun _ => False)) ?_ fun _ h => h.elim)
      · cases dirty with
        | false => rfl
        | true => have := hin (hdt rfl); omega
      · rintro _ _ _ ⟨rfl, rfl, rfl⟩
        exact post_pure ⟨ram_eq hr, .inr ⟨he, ho.un⟩⟩

theorem splice_end (old b : Bytes) : splice old old.length b = old ++ b := by
  simp [splice]

theorem appendFile_post (p : String) (b : Bytes) (hr : r.h = none) :
    Post (appendFile p b) d r
      (fun e d' r' => r' = r ∧
        ((e = 0 ∧ ∃ data, data = contents d p ++ b ∧ Holds d p data d') ∨ (e < 0 ∧ Untouched d p d')))
      (Untouched d p) := by
  unfold appendFile
  refine post_bind (post_mono (open_create p false hr) ?_ fun _ h => h)
  rintro e d1 r1 (⟨he, hu, rfl⟩ | ⟨rfl, ho, dirty, hdt, hdf, rfl⟩)
  · rw [if_pos he]
    exact post_pure ⟨rfl, .inr ⟨he, hu⟩⟩
  · rw [if_neg (by decide)]
    have hd : dirty = false := by cases dirty with | false => rfl | true => cases hdt rfl
    subst hd
    unfold lfsSeekEnd
    refine post_bind (post_bind (handle_post rfl ?_))
    simp only [Bool.false_eq_true, if_false]
    by_cases hoff : 0 ≤ (((contents d p).length : Nat) : Int) ∧ (((contents d p).length : Nat) : Int) ≤ (fileMax : Int)
    · refine post_mono (seek_ok rfl hoff.1 hoff.2 (X := fun _ => False)) ?_ fun _ h => h.elim
      rintro e d' r' ⟨rfl, rfl, rfl⟩
      rw [if_neg (by omega)]
      refine post_mono (finish_post (h := ⟨p, contents d p, (contents d p).length, false, false⟩) rfl ho b (fun _ => rfl) rfl
        (fun h => by cases h)) ?_ fun _ h => h
      rintro e' d' r' ⟨rfl, h⟩
      refine ⟨ram_eq hr, ?_⟩
      rcases h with ⟨rfl, h⟩ | h
      · refine .inl ⟨rfl, _, ?_, h⟩
        by_cases hb : b = []
        · simp [hb]
        · simp only [if_neg hb]
          exact splice_end _ _
      · exact .inr h
    · refine post_mono (seek_bad rfl hoff (X := fun _ => False)) ?_ fun _ h => h.elim
      rintro e d' r' ⟨he, rfl, rfl⟩
      rw [if_pos he]
      refine post_bind (post_mono (close_clean rfl (.inr rfl) (X := fun _ => False)) ?_ fun _ h => h.elim)
      rintro _ _ _ ⟨rfl, rfl, rfl⟩
      exact post_pure ⟨ram_eq hr, .inr ⟨he, ho.un⟩⟩

theorem isResized_of (old : Bytes) (n : Nat) : IsResized old n (old.take n ++ List.replicate (n - old.length) 0) := by
  intro i
  rw [List.getElem?_append]
  simp only [List.length_take, List.getElem?_take, List.getElem?_replicate]
  by_cases h1 : n ≤ i
  · rw [if_pos h1, if_neg (by omega), if_neg (by omega)]
  · rw [if_neg h1]
    by_cases h2 : i < old.length
    · rw [if_pos (by omega), if_pos h2, if_pos (by omega)]
    · rw [if_neg (by omega), if_neg h2, if_pos (by omega)]

theorem truncateFile_post (p : String) (n : Nat) (hr : r.h = none) :
    Post (truncateFile p n) d r
      (fun e d' r' => r' = r ∧
        ((e = 0 ∧ ∃ data, IsResized (contents d p) n data ∧ Holds d p data d') ∨ (e < 0 ∧ Untouched d p d')))
      (Untouched d p) := by
  unfold truncateFile
  refine post_bind (post_mono (open_create p false hr) ?_ fun _ h => h)
  rintro e d1 r1 (⟨he, hu, rfl⟩ | ⟨rfl, ho, dirty, hdt, hdf, rfl⟩)
  · rw [if_pos he]
    exact post_pure ⟨rfl, .inr ⟨he, hu⟩⟩
  · rw [if_neg (by decide)]
    have hd : dirty = false := by cases dirty with | false => rfl | true => cases hdt rfl
    subst hd
    unfold lfsTruncate
    refine post_bind (post_bind (handle_post rfl ?_))
    simp only [Bool.false_eq_true, if_false, Bool.false_or]
    split
    · refine post_pure ?_
      rw [if_pos (by decide)]
      refine post_bind (post_mono (close_clean rfl (.inr rfl) (X := fun _ => False)) ?_ fun _ h => h.elim)
      rintro _ _ _ ⟨rfl, rfl, rfl⟩
      exact post_pure ⟨ram_eq hr, .inr ⟨by decide, ho.un⟩⟩
    · refine post_bind (post_read ?_ ?_ ho.un)
      · refine post_bind (post_mod (post_pure ?_))
        rw [if_neg (by decide)]
        refine post_mono (finish_post (h := ⟨p, (contents d p).take n ++ List.replicate (n - (contents d p).length) 0, 0,
          n != (contents d p).length, false⟩) rfl ho [] ?_ rfl ?_) ?_ fun _ h => h
        · simp only [bne_eq_false_iff_eq]
          rintro rfl
          simp
        · intro _; simp
        · rintro e' d' r' ⟨rfl, h⟩
          refine ⟨ram_eq hr, ?_⟩
          rcases h with ⟨rfl, h⟩ | h
          · exact .inl ⟨rfl, _, isResized_of _ _, h⟩
          · exact .inr h
      · refine post_bind (post_mod (post_pure ?_))
        rw [if_pos (by decide)]
        refine post_bind (post_mono (close_clean rfl (.inl rfl) (X := fun _ => False)) ?_ fun _ h => h.elim)
        rintro _ _ _ ⟨rfl, rfl, rfl⟩
        exact post_pure ⟨ram_eq hr, .inr ⟨by decide, ho.un⟩⟩

theorem readFile_post (p : String) (off : Int) (len : Nat) (hr : r.h = none) :
    Post (readFile p off len) d r
      (fun e d' r' => r' = r ∧ d' = d ∧ match e with
        | .ok b => d p ≠ none ∧ b = ((contents d p).drop off.toNat).take len
        | .error e => e < 0) (· = d) := by
  unfold readFile
  refine post_bind (post_mono (open_read p hr) ?_ fun _ h => h)
  rintro e d1 r1 ⟨rfl, ⟨he, rfl⟩ | ⟨rfl, hp, rfl⟩⟩
  · rw [if_pos he]
    exact post_pure ⟨rfl, rfl, he⟩
  · rw [if_neg (by decide)]
    by_cases hoff : 0 ≤ off ∧ off ≤ (fileMax : Int)
    · refine post_bind (post_mono (seek_ok rfl hoff.1 hoff.2 (X := fun _ => False)) ?_ fun _ h => h.elim)
      rintro e d' r' ⟨rfl, rfl, rfl⟩
      rw [if_neg (by omega)]
      unfold lfsRead
      refine post_bind (post_bind (handle_post rfl ?_))
      refine post_bind (post_read ?_ ?_ rfl)
      · refine post_bind (post_mod (post_pure ?_))
        refine post_bind (post_mono (close_clean rfl (.inr rfl) (X := fun _ => False)) ?_ fun _ h => h.elim)
        rintro _ _ _ ⟨rfl, rfl, rfl⟩
        rw [if_neg (by decide)]
        exact post_pure ⟨ram_eq hr, rfl, hp, rfl⟩
      · refine post_pure ?_
        refine post_bind (post_mono (close_clean rfl (.inr rfl) (X := fun _ => False)) ?_ fun _ h => h.elim)
        rintro _ _ _ ⟨rfl, rfl, rfl⟩
        exact post_pure ⟨ram_eq hr, rfl, (by decide : eIo < 0)⟩
    · refine post_bind (post_mono (seek_bad rfl hoff (X := fun _ => False)) ?_ fun _ h => h.elim)
      rintro e d' r' ⟨he, rfl, rfl⟩
      rw [if_pos he]
      refine post_bind (post_mono (close_clean rfl (.inr rfl) (X := fun _ => False)) ?_ fun _ h => h.elim)
      rintro _ _ _ ⟨rfl, rfl, rfl⟩
      exact post_pure ⟨ram_eq hr, rfl, he⟩

theorem getFileSize_post (p : String) (hr : r.h = none) :
    Post (getFileSize p) d r
      (fun e d' r' => r' = r ∧ d' = d ∧ (e < 0 ∨ (d p ≠ none ∧ e = (contents d p).length))) (· = d) := by
  unfold getFileSize
  refine post_bind (post_mono (open_read p hr) ?_ fun _ h => h)
  rintro e d1 r1 ⟨rfl, ⟨he, rfl⟩ | ⟨rfl, hp, rfl⟩⟩
  · rw [if_pos he]
    exact post_pure ⟨rfl, rfl, .inl he⟩
  · rw [if_neg (by decide)]
    unfold lfsSize
    refine post_bind (post_bind (handle_post rfl (post_pure ?_)))
    rw [if_neg (by simp only; omega)]
    refine post_bind (post_mono (close_clean rfl (.inr rfl) (X := fun _ => False)) ?_ fun _ h => h.elim)
    rintro _ _ _ ⟨rfl, rfl, rfl⟩
    rw [if_neg (by decide)]
    exact post_pure ⟨ram_eq hr, rfl, .inr ⟨hp, rfl⟩⟩

theorem readAttr_post (p : String) (t : Byte) (len : Nat) :
    Post (readAttr p t len) d r
      (fun e d' r' => r' = r ∧ d' = d ∧ match e with
        | .ok (n, b) => ∃ a, attrs d p t = some a ∧ n = a.length ∧ b = a.take len ++ List.replicate (len - a.length) 0
        | .error e => e < 0) (· = d) := by
  unfold readAttr lfsGetAttr
  refine post_bind (post_read ?_ (post_pure ⟨rfl, rfl, (by decide : eIo < 0)⟩) rfl)
  cases hp : d p with
  | none => exact post_pure ⟨rfl, rfl, (by decide : eNoEnt < 0)⟩
  | some f =>
    simp only
    cases ha : f.attr t with
    | none => exact post_pure ⟨rfl, rfl, (by decide : eNoAttr < 0)⟩
    | some a => exact post_pure ⟨rfl, rfl, a, by simp [attrs, hp, ha], rfl, rfl⟩

theorem writeAttr_post (p : String) (t : Byte) (b : Bytes) :
    Post (writeAttr p t b) d r
      (fun e d' r' => r' = r ∧ ((e = 0 ∧ d p ≠ none ∧
        d' p = some ⟨contents d p, fun u => if u = t then some b else attrs d p u⟩ ∧ ∀ q, q ≠ p → d' q = d q) ∨
          (e < 0 ∧ d' = d))) (· = d) := by
  unfold writeAttr lfsSetAttr
  split
  · exact post_pure ⟨rfl, .inr ⟨by decide, rfl⟩⟩
  · refine post_bind (post_read ?_ (post_pure ⟨rfl, .inr ⟨by decide, rfl⟩⟩) rfl)
    cases hp : d p with
    | none => exact post_pure ⟨rfl, .inr ⟨by decide, rfl⟩⟩
    | some f =>
      simp only
      refine post_bind (post_write ?_ (post_pure ⟨rfl, .inr ⟨by decide, rfl⟩⟩) rfl)
      intro d' hu
      rw [hp] at hu
      cases hu
      refine post_pure ⟨rfl, .inl ⟨rfl, by simp, ?_, ?_⟩⟩
      · simp [Disk.put, contents, attrs, hp]
      · intro q hq; simp [Disk.put, hq]

theorem rename_post (old new : String) :
    Post (fsRename old new) d r
      (fun e d' r' => r' = r ∧ ((e = 0 ∧ d old ≠ none ∧ d' new = d old ∧ (old ≠ new → d' old = none) ∧
        ∀ q, q ≠ old → q ≠ new → d' q = d q) ∨ (e < 0 ∧ d' = d))) (· = d) := by
  unfold fsRename lfsRename
  refine post_bind (post_read ?_ (post_pure ⟨rfl, .inr ⟨by decide, rfl⟩⟩) rfl)
  cases hp : d old with
  | none => exact post_pure ⟨rfl, .inr ⟨by decide, rfl⟩⟩
  | some f =>
    simp only
    split
    · rename_i h
      subst h
      exact post_pure ⟨rfl, .inl ⟨rfl, by simp, hp, fun h => absurd rfl h, fun _ _ _ => rfl⟩⟩
    · rename_i hne
      refine post_bind (post_write ?_ (post_pure ⟨rfl, .inr ⟨by decide, rfl⟩⟩) rfl)
      intro d' hu
      cases hu
      refine post_pure ⟨rfl, .inl ⟨rfl, by simp, by simp, fun _ => by simp [hne], ?_⟩⟩
      intro q h1 h2
      simp [h1, h2]

end Verif.Fs
