import Verif.Lemmas.CtapLb
import Verif.Props.CtapNext
/-
C62: the large-blob array changes only to a completely received, sealed array.
-/
namespace Verif.Ctap
open Cmd

variable {x : Ext}

/-- A command from its handler. -/
theorem cbor_wp {A : Fault → Prop} {s : St} {i : In} {q : Req} {env : Env} {Q : Resp → Flash → Ram → Prop}
    {E : Err → Flash → Ram → Prop} {X : Flash → Ram → Prop} {P : St × Out → Prop} (hA : ∀ n, A (env n))
    (h : wp A (handle x i q) Q E X s.flash (aged i s.ram))
    (hQ : ∀ a f r, Q a f r → P (⟨f, { r with lastCmd := q.cmd }⟩, .resp a))
    (hE : ∀ c f r, E (.code c) f r → P (⟨f, { r with lastCmd := 0xFF }⟩, .err c))
    (hU : ∀ u f r, E (.ub u) f r → P (⟨f, r⟩, .ub u)) (hX : ∀ f r, X f r → P (⟨f, Ram.init⟩, .cut)) :
    P (step x s (.cbor i q) env) := by
  unfold step
  refine exec_wp (P := P) (A := A) hA (Q := fun a f r => P (⟨f, r⟩, .resp a))
    (E := fun e f r => match e with
      | .code c => P (⟨f, r⟩, .err c)
      | .ub u => P (⟨f, r⟩, .ub u)) (X := fun f _ => P (⟨f, Ram.init⟩, .cut)) ?_
    (fun _ _ _ h => h) (fun _ _ _ h => h) (fun _ _ _ h => h) (fun _ _ h => h)
  unfold process
  apply wp_bind
  apply wp_mod
  apply wp_bind
  apply wp_catch
  refine wp_mono h ?_ ?_ ?_
  · intro a f r ha
    apply wp_bind
    apply wp_mod
    exact wp_pure (hQ a f r ha)
  · intro e f r he
    cases e with
    | code c =>
      apply wp_bind
      apply wp_mod
      exact wp_fail (hE c f r he)
    | ub u => exact wp_throw (hU u f r he)
  · exact fun f r h => hX f r h

/-- The operation is a request to write a fragment of the large-blob array. -/
def Op.writesBlob : Op → Option LbReq
  | .cbor _ (.lb (.ok q)) => if q.get = none then some q else none
  | _ => none

/-- What was received of a large-blob array (newest operation first): `Received h n b` says that in the history
`h` a fragment at offset 0 announcing `n` bytes was accepted, and after it, without loss of power in between,
further fragments each starting where the one before ended, which together are `b`. -/
inductive Received : List (Op × Out) → Nat → Bytes → Prop where
  | first {h : List (Op × Out)} {op : Op} {q : LbReq} (hw : op.writesBlob = some q) (h0 : q.offset = 0) :
      Received ((op, .resp .empty) :: h) q.length q.set
  | next {h : List (Op × Out)} {n : Nat} {b : Bytes} {op : Op} {q : LbReq} (hr : Received h n b)
      (hw : op.writesBlob = some q) (hq : q.offset = b.length) (h0 : q.offset ≠ 0) :
      Received ((op, .resp .empty) :: h) n (b ++ q.set)
  | other {h : List (Op × Out)} {n : Nat} {b : Bytes} {op : Op} {out : Out} (hr : Received h n b)
      (hp : op.powers = false) (hc : out ≠ .cut)
      (hw : ∀ q, op.writesBlob = some q → q.offset ≠ 0 ∧ ∀ a, out ≠ .resp a) :
      Received ((op, out) :: h) n b

/-- The history of a run, newest operation first. -/
def past (x : Ext) (s : St) : List (Op × Env) → List (Op × Out) → List (Op × Out)
  | [], h => h
  | (o, env) :: rest, h => past x (step x s o env).1 rest ((o, (step x s o env).2) :: h)

/-- What the device holds of an array being received is what was received. -/
def Tracks (h : List (Op × Out)) (s : St) : Prop :=
  LbIdle s.ram ∨ ∃ n b, s.ram.lb = ⟨b.length, n⟩ ∧ s.flash.lbt = some b ∧ Received h n b

/-- Frames at the level of operations. -/
theorem blob_exec {α : Type} {m : M α} (h : Rel Blob m) {g : α → Out} {s : St} {env : Env} :
    (exec m g s env).1.flash.lb = s.flash.lb ∧ ((exec m g s env).1.ram = Ram.init ∧ (exec m g s env).2 = .cut ∨
      (exec m g s env).1.flash.lbt = s.flash.lbt ∧ (exec m g s env).1.ram.lb = s.ram.lb) := by
  refine exec_wp (P := fun p : St × Out => p.1.flash.lb = s.flash.lb ∧ (p.1.ram = Ram.init ∧ p.2 = .cut ∨
    p.1.flash.lbt = s.flash.lbt ∧ p.1.ram.lb = s.ram.lb)) (A := fun _ => True) (fun _ => trivial) (h _ _ _) ?_ ?_ ?_ ?_
  · intro _ f r h; exact ⟨h.lb, Or.inr ⟨h.lbt, h.ram⟩⟩
  · intro _ f r h; exact ⟨h.lb, Or.inr ⟨h.lbt, h.ram⟩⟩
  · intro _ f r h; exact ⟨h.lb, Or.inr ⟨h.lbt, h.ram⟩⟩
  · intro f r h; exact ⟨h.lb, Or.inl ⟨rfl, rfl⟩⟩

theorem lbidle_init : LbIdle Ram.init := Or.inl rfl

theorem lbidle_lastCmd {r : Ram} {c : Byte} (h : LbIdle r) : LbIdle { r with lastCmd := c } := h

/-- The step result when the operation is not a large-blob write. -/
theorem tracks_other {h : List (Op × Out)} {s s' : St} {op : Op} {out : Out} (ht : Tracks h s) (hw : op.writesBlob = none)
    (hs : (s'.ram = Ram.init ∧ out = .cut) ∨ (s'.flash.lbt = s.flash.lbt ∧ s'.ram.lb = s.ram.lb ∧ op.powers = false ∧ out ≠ .cut) ∨ LbIdle s'.ram) :
    Tracks ((op, out) :: h) s' := by
  rcases hs with ⟨h1, _⟩ | ⟨h1, h2, h3, h4⟩ | h1
  · left; rw [h1]; exact lbidle_init
  · rcases ht with hi | ⟨n, b, a1, a2, a3⟩
    · left; unfold LbIdle; rw [h2]; exact hi
    · right
      refine ⟨n, b, h2.trans a1, h1.trans a2, .other a3 h3 h4 ?_⟩
      intro q hq
      rw [hw] at hq
      cases hq
  · exact Or.inl h1

/-- Installation does not touch the reception. -/
structure Kept (f : Flash) (r : Ram) (f' : Flash) (r' : Ram) : Prop where
  lbt : f'.lbt = f.lbt
  ram : r'.lb = r.lb
instance : Pre Kept where
  refl _ _ := ⟨rfl, rfl⟩
  trans _ _ _ _ _ _ a b := ⟨b.lbt.trans a.lbt, b.ram.trans a.ram⟩
theorem Blob.kept {f f' : Flash} {r r' : Ram} (h : Blob f r f' r') : Kept f r f' r' := ⟨h.lbt, h.ram⟩

theorem kept_install (i : In) (b : Bool) : Rel Kept (install i b) := by
  unfold install
  rels (first | (intro _ _ _ h; exact (Stored.updAttr' h).blob.kept) | (intro _ _ _ h; exact (Blob.upd h).kept) | (intro _ _ _ h; cases h; exact ⟨rfl, rfl⟩) | (intro _ _; exact ⟨rfl, rfl⟩))

theorem out_cut {α : Type} {m : M α} {g : α → Out} {s : St} {env : Env} (hg : ∀ a, g a ≠ .cut)
    (h : (exec m g s env).2 = .cut) : (exec m g s env).1.ram = Ram.init := by
  revert h
  unfold exec
  split
  · intro _; rfl
  · intro h; exact absurd h (hg _)
  · intro h; cases h
  · intro h; cases h

theorem kept_exec {α : Type} {m : M α} (h : Rel Kept m) {g : α → Out} (hg : ∀ a, g a ≠ .cut) {s : St} {env : Env} :
    ((exec m g s env).1.ram = Ram.init ∧ (exec m g s env).2 = .cut) ∨
      ((exec m g s env).1.flash.lbt = s.flash.lbt ∧ (exec m g s env).1.ram.lb = s.ram.lb ∧ (exec m g s env).2 ≠ .cut) := by
  by_cases hc : (exec m g s env).2 = .cut
  · exact Or.inl ⟨out_cut hg hc, hc⟩
  right
  have := exec_wp (m := m) (g := g) (s := s) (env := env) (P := fun p : St × Out => p.2 = .cut ∨
    (p.1.flash.lbt = s.flash.lbt ∧ p.1.ram.lb = s.ram.lb)) (A := fun _ => True) (fun _ => trivial) (h _ _ _)
    (fun _ _ _ h => Or.inr ⟨h.lbt, h.ram⟩) (fun _ _ _ h => Or.inr ⟨h.lbt, h.ram⟩) (fun _ _ _ h => Or.inr ⟨h.lbt, h.ram⟩)
    (fun _ _ h => Or.inl rfl)
  rcases this with h | h
  · exact absurd h hc
  · exact ⟨h.1, h.2, hc⟩

theorem kept_of_blob {α : Type} {m : M α} (h : Rel Blob m) : Rel Kept m := h.mono fun _ _ _ _ h => h.kept

/-- The handlers other than large-blob writes and reset. -/
theorem bl_handle (i : In) {q : Req} (hq : q ≠ .reset) (hw : (Op.cbor i q).writesBlob = none) : Rel Blob (handle x i q) := by
  cases q with
  | mc q => exact bl_makeCredential x i q
  | ga q => exact bl_getAssertion x i q
  | gna => exact bl_getNext x i
  | info => exact Rel.bind (bl_same same_hasPin) fun _ => Rel.pure _
  | cp q => exact bl_clientPin x i q
  | reset => exact absurd rfl hq
  | cm q => exact bl_credMgmt x i q
  | sel => exact Rel.bind (bl_same (same_wait _ _)) fun _ => Rel.pure _
  | lb q =>
    cases q with
    | error c => exact Rel.fail _
    | ok q =>
      unfold handle largeBlobs
      cases hg : q.get with
      | none => simp [Op.writesBlob, hg] at hw
      | some n =>
        simp only [hg]
        rels (blobs)
  | other c => exact Rel.fail _

theorem bl_process (i : In) {q : Req} (hq : q ≠ .reset) (hw : (Op.cbor i q).writesBlob = none) : Rel Blob (process x i q) := by
  unfold process
  rels (first | exact bl_handle i hq hw | blobs)

theorem kept_process_reset (i : In) : Rel Kept (process x i .reset) := by
  unfold process
  rels (first | (show Rel Kept (resetData i); unfold resetData; rels (exact kept_install i _)) | (intro _ _; exact ⟨rfl, rfl⟩))

/-- Every operation: the reception is tracked, and the array changes only to a completely received one. -/
theorem blob_step {h : List (Op × Out)} {s : St} (ht : Tracks h s) (op : Op) (env : Env) :
    Tracks ((op, (step x s op env).2) :: h) (step x s op env).1 ∧
    (op.resets = false → (op.powers = true → (step x s op env).1.flash = s.flash) →
      (step x s op env).1.flash.lb = s.flash.lb ∨
      ∃ q n b, op.writesBlob = some q ∧ (step x s op env).2 = .resp .empty ∧ Received ((op, (step x s op env).2) :: h) n b ∧ (step x s op env).1.flash.lb = some b ∧ b.length = n ∧ Sealed x b) := by
  have frame : ∀ {α : Type} (m : M α) (g : α → Out), (∀ a, g a ≠ .cut) → op.writesBlob = none → op.powers = false →
      step x s op env = exec m g s env → Rel Kept m → (op.resets = false → Rel Blob m) →
      Tracks ((op, (step x s op env).2) :: h) (step x s op env).1 ∧
      (op.resets = false → (op.powers = true → (step x s op env).1.flash = s.flash) →
        (step x s op env).1.flash.lb = s.flash.lb ∨
        ∃ q n b, op.writesBlob = some q ∧ (step x s op env).2 = .resp .empty ∧ Received ((op, (step x s op env).2) :: h) n b ∧ (step x s op env).1.flash.lb = some b ∧ b.length = n ∧ Sealed x b) := by
    intro α m g hg hw hp e hk hb
    rw [e]
    refine ⟨tracks_other ht hw ?_, fun hr _ => Or.inl (blob_exec (hb hr)).1⟩
    rcases kept_exec (s := s) (env := env) hk hg with h | h
    · exact Or.inl h
    · exact Or.inr (Or.inl ⟨h.1, h.2.1, hp, h.2.2⟩)
  cases op with
  | powerOn i =>
    refine ⟨tracks_other ht rfl ?_, fun _ hp => Or.inl (by rw [hp rfl])⟩
    right; right
    have := kept_exec (s := ⟨s.flash, Ram.init⟩) (env := env) (kept_install i false) (g := fun _ => .done) (fun _ => nofun)
    rcases this with h | h
    · show LbIdle (exec (install i false) (fun _ => .done) ⟨s.flash, Ram.init⟩ env).1.ram
      rw [h.1]; exact lbidle_init
    · left
      show (exec (install i false) (fun _ => .done) ⟨s.flash, Ram.init⟩ env).1.ram.lb.off = 0
      rw [h.2.1]
      rfl
  | u2f i q => exact frame (u2f x i q) .u2f (fun _ => nofun) rfl rfl rfl (kept_of_blob (bl_u2f x i q)) fun _ => bl_u2f x i q
  | adminReset i => exact frame (install i true) (fun _ => .done) (fun _ => nofun) rfl rfl rfl (kept_install i true) nofun
  | installKey k =>
    have : Rel Blob (installKeyM k) := by
      unfold installKeyM
      rels (blobs)
    exact frame (installKeyM k) (fun _ => .done) (fun _ => nofun) rfl rfl rfl (kept_of_blob this) fun _ => this
  | installCert k =>
    have : Rel Blob (installCertM k) := by
      unfold installCertM
      rels (blobs)
    exact frame (installCertM k) (fun _ => .done) (fun _ => nofun) rfl rfl rfl (kept_of_blob this) fun _ => this
  | writeSm2 k =>
    have : Rel Blob (writeSm2M k) := by
      unfold writeSm2M
      rels (blobs)
    exact frame (writeSm2M k) (fun _ => .done) (fun _ => nofun) rfl rfl rfl (kept_of_blob this) fun _ => this
  | cbor i q =>
    by_cases hre : q = .reset
    · subst hre
      exact frame (process x i .reset) .resp (fun _ => nofun) rfl rfl rfl (kept_process_reset i) nofun
    by_cases hw : (Op.cbor i q).writesBlob = none
    · exact frame (process x i q) .resp (fun _ => nofun) hw rfl rfl (kept_of_blob (bl_process i hre hw)) fun _ => bl_process i hre hw
    · obtain ⟨q', hw⟩ := Option.ne_none_iff_exists'.mp hw
      have hww := hw
      obtain ⟨hq, hg⟩ : q = .lb (.ok q') ∧ q'.get = none := by
        unfold Op.writesBlob at hww
        split at hww
        · rename_i i' q'' hc
          cases hc
          split at hww
          · cases hww; exact ⟨rfl, by assumption⟩
          · cases hww
        · cases hww
      subst hq
      have hwp := wp_lbWrite x i (A := fun _ => True) (f := s.flash) (r := aged i s.ram) q' (by
        intro _
        rcases ht with h | ⟨n, b, a1, a2, _⟩
        · exact Or.inl h
        · exact Or.inr ⟨n, b, a1, a2⟩)
      have hrec : ∀ n b0, Follows s.flash (aged i s.ram) q' n b0 →
          Received ((Op.cbor i (.lb (.ok q')), .resp .empty) :: h) n (b0 ++ q'.set) := by
        intro n b0 hf
        have hle := hf.1
        rcases hf with ⟨_, ⟨h0, rfl, rfl⟩ | ⟨h0, h1, h2, h3⟩⟩
        · exact .first hw h0
        · have h2 : s.ram.lb = ⟨b0.length, n⟩ := h2
          refine .next ?_ hw h1 h0
          rcases ht with hi | ⟨n', b, a1, a2, a3⟩
          · exfalso
            rcases hi with hi | hi
            · rw [h2] at hi
              exact h0 (h1.trans hi)
            · rw [h2] at hi
              rw [List.length_append] at hle
              have hi : n < b0.length := hi
              omega
          · rw [a2] at h3
            cases h3
            rw [a1] at h2
            cases h2
            exact a3
      refine cbor_wp (s := s) (i := i) (q := .lb (.ok q')) (env := env) (P := fun p : St × Out => Tracks ((Op.cbor i (.lb (.ok q')), p.2) :: h) p.1 ∧
        ((Op.cbor i (.lb (.ok q'))).resets = false → ((Op.cbor i (.lb (.ok q'))).powers = true → p.1.flash = s.flash) →
          p.1.flash.lb = s.flash.lb ∨ ∃ q n b, (Op.cbor i (.lb (.ok q'))).writesBlob = some q ∧ p.2 = .resp .empty ∧ Received ((Op.cbor i (.lb (.ok q')), p.2) :: h) n b ∧ p.1.flash.lb = some b ∧
            b.length = n ∧ Sealed x b)) (A := fun _ => True) (fun _ => trivial)
        (by
          show wp _ (largeBlobs x i (.ok q')) _ _ _ _ _
          unfold largeBlobs
          simp only [hg]
          exact hwp) ?_ ?_ ?_ ?_
      · rintro a f r ⟨n, b0, hf, rfl, ⟨h1, h2, h3, _⟩ | ⟨h1, h2⟩⟩
        · exact ⟨Or.inr ⟨n, b0 ++ q'.set, h3, h2, hrec n b0 hf⟩, fun _ _ => Or.inl h1⟩
        · exact ⟨Or.inl h2, fun _ _ => Or.inr ⟨q', n, b0 ++ q'.set, hw, rfl, hrec n b0 hf, h1.lb, h1.len, h1.hash⟩⟩
      · rintro c f r ⟨h1, h2⟩
        refine ⟨?_, fun _ _ => Or.inl h1⟩
        rcases h2 with h2 | ⟨h0, h2, h3⟩
        · exact Or.inl h2
        · rcases ht with hi | ⟨n, b, a1, a2, a3⟩
          · left
            have h2 : r.lb = s.ram.lb := h2
            unfold LbIdle
            rw [h2]
            exact hi
          · refine Or.inr ⟨n, b, h2.trans a1, h3.trans a2, .other a3 rfl nofun ?_⟩
            intro q2 hq2
            rw [hw] at hq2
            cases hq2
            exact ⟨h0, fun _ => nofun⟩
      · rintro c f r ⟨h1, h2⟩
        refine ⟨?_, fun _ _ => Or.inl h1⟩
        rcases h2 with h2 | ⟨h0, h2, h3⟩
        · exact Or.inl h2
        · rcases ht with hi | ⟨n, b, a1, a2, a3⟩
          · left
            have h2 : r.lb = s.ram.lb := h2
            unfold LbIdle
            rw [h2]
            exact hi
          · refine Or.inr ⟨n, b, h2.trans a1, h3.trans a2, .other a3 rfl nofun ?_⟩
            intro q2 hq2
            rw [hw] at hq2
            cases hq2
            exact ⟨h0, fun _ => nofun⟩
      · intro f r h1
        exact ⟨Or.inl lbidle_init, fun _ _ => Or.inl h1⟩

theorem tracks_run {s : St} {h : List (Op × Out)} (ht : Tracks h s) (ops : List (Op × Env)) :
    Tracks (past x s ops h) (run x s ops).1 := by
  induction ops generalizing s h with
  | nil => exact ht
  | cons o ops ih => exact ih (blob_step ht o.1 o.2).1

/-- The stored array changes (other than by a reset) only when a write of a fragment is accepted, to an array
`b` of which every byte was received, in order and without loss of power in between, whose length is the one
announced and whose last 16 bytes are the hash of the others; whatever fails, wherever power is cut. -/
theorem C62_changes (s : St) (hs : s.ram.lb.off = 0) (ops : List (Op × Env)) (op : Op) (env : Env) (hr : op.resets = false)
    (hp : op.powers = true → (run x s ops).1.flash.lb.isSome = true ∧ noFail env) :
    (step x (run x s ops).1 op env).1.flash.lb = (run x s ops).1.flash.lb ∨
    ∃ q n b, op.writesBlob = some q ∧ (step x (run x s ops).1 op env).2 = .resp .empty ∧
      Received ((op, (step x (run x s ops).1 op env).2) :: past x s ops []) n b ∧
      (step x (run x s ops).1 op env).1.flash.lb = some b ∧ b.length = n ∧ Sealed x b := by
  refine (blob_step (h := past x s ops []) (tracks_run (Or.inl (Or.inl hs)) ops) op env).2 hr ?_
  intro h
  cases op with
  | powerOn i => exact (step_boot (hp h).1 (hp h).2).1
  | _ => cases h

/-- A command that does not complete, or is refused, leaves the array as it was. -/
theorem C62_incomplete (s : St) (hs : s.ram.lb.off = 0) (ops : List (Op × Env)) (op : Op) (env : Env) (hr : op.resets = false)
    (hp : op.powers = true → (run x s ops).1.flash.lb.isSome = true ∧ noFail env)
    (ho : ∀ a, (step x (run x s ops).1 op env).2 ≠ .resp a) :
    (step x (run x s ops).1 op env).1.flash.lb = (run x s ops).1.flash.lb := by
  rcases C62_changes s hs ops op env hr hp with h | ⟨_, _, _, _, h, _⟩
  · exact h
  · exact absurd h (ho _)

/-- Reading gives the part of the stored array that was asked for, as far as it exists. -/
theorem C62_read (s : St) (i : In) (q : LbReq) (n : Nat) (hq : q.get = some n) (env : Env) (a : Resp)
    (h : (step x s (.cbor i (.lb (.ok q))) env).2 = .resp a) :
    ∃ b, s.flash.lb = some b ∧ q.offset ≤ b.length ∧ a = .config ((b.drop q.offset).take n) := by
  revert h
  refine cbor_wp (s := s) (i := i) (q := .lb (.ok q)) (env := env) (P := fun p : St × Out => p.2 = .resp a → ∃ b, s.flash.lb = some b ∧ q.offset ≤ b.length ∧
    a = .config ((b.drop q.offset).take n)) (A := fun _ => True) (fun _ => trivial)
    (Q := fun a _ _ => ∃ b, s.flash.lb = some b ∧ q.offset ≤ b.length ∧ a = .config ((b.drop q.offset).take n))
    (E := fun _ _ _ => True) (X := fun _ _ => True) ?_ ?_ (fun _ _ _ _ => nofun) (fun _ _ _ _ => nofun) (fun _ _ _ => nofun)
  · show wp _ (largeBlobs x i (.ok q)) _ _ _ _ _
    unfold largeBlobs
    simp only [hq]
    apply wp_bind
    apply wp_rdOr
    · intro size hsize
      apply wp_bind
      apply wp_failIf
      · intro _; trivial
      intro hof
      apply wp_bind
      apply wp_rdOr
      · intro b hb
        rw [hb] at hsize
        cases hsize
        have hof : q.offset ≤ b.length := by simpa using hof
        refine wp_pure ⟨b, hb, hof, ?_⟩
        congr 1
        split
        · rename_i hg
          have hg : q.offset + n > b.length := hg
          rw [List.take_of_length_le (by rw [List.length_drop]; exact Nat.le_refl _)]
          rw [List.take_of_length_le (by rw [List.length_drop]; omega)]
        · rfl
      all_goals (intros; trivial)
    all_goals (intros; trivial)
  · rintro b f r hb h
    cases h
    exact hb

/-- Without faults and without a PIN, a fragment in its place is accepted. -/
theorem ok_lbWrite {f : Flash} {r : Ram} {i : In} {q : LbReq} {n : Nat} {b0 : Bytes} (hf : Follows f r q n b0)
    (hpin : rdCert (·.pin) f = some []) (hs : (b0 ++ q.set).length = n → Sealed x (b0 ++ q.set)) :
    wp allOk (lbSet x i q) (fun _ f' _ => f'.cert = f.cert) (fun _ _ _ => False) (fun _ _ => False) f r := by
  obtain ⟨hle, hf⟩ := hf
  have hq : q.offset = b0.length := by
    rcases hf with ⟨h, rfl, _⟩ | ⟨_, h, _⟩
    · exact h
    · exact h
  have hauth : ∀ r1, wp allOk (lbAuth x i q) (fun _ f' r' => f' = f ∧ r' = r1) (fun _ _ _ => False) (fun _ _ => False) f r1 := by
    intro r1
    unfold lbAuth hasPin
    apply wp_bind
    apply wp_bind
    apply wp_rdF
    · intro _
      rw [hpin]
      apply wp_pure
      exact wp_pure ⟨rfl, rfl⟩
    · intro h; cases h
    · intro h; cases h
  have key : ∀ r1 : Ram, r1.lb = ⟨b0.length, n⟩ → wp allOk (do
        let r ← Cmd.get
        failIf (q.offset != r.lb.off) Code.invalidSeq
        lbAuth x i q
        failIf (q.offset + q.set.length > r.lb.len) Code.invalidParameter
        Cmd.wrOr (fun f => some { f with
            lbt := some (if q.offset == 0 then q.set else writeAt (f.lbt.getD []) q.offset q.set) })
          (.code Code.unhandled)
        Cmd.mod fun r => { r with lb := { r.lb with off := r.lb.off + q.set.length } }
        if q.offset + q.set.length == r.lb.len then do
          Cmd.mod fun r => { r with lb := { r.lb with len := r.lb.len - 16 } }
          let n := r.lb.len - 16
          let b ← Cmd.rdOr (fun f => f.lbt) (.code Code.unhandled)
          failIf ((x.sha (b.take n)).take 16 != (b.drop n).take 16) Code.integrity
          Cmd.wrOr (fun f => f.lbt.map fun b => { f with lb := some b, lbt := none }) (.code Code.unhandled)
          return .empty
        else return .empty : M Resp) (fun _ f' _ => f'.cert = f.cert) (fun _ _ _ => False) (fun _ _ => False) f r1 := by
    intro r1 hr1
    apply wp_bind
    apply wp_get
    apply wp_bind
    apply wp_failIf
    · intro h; rw [hr1, hq] at h; simp at h
    intro _
    apply wp_bind
    refine wp_mono (hauth r1) ?_ (fun _ _ _ h => h) (fun _ _ h => h)
    rintro _ f2 r2 ⟨rfl, rfl⟩
    apply wp_bind
    apply wp_failIf
    · intro h
      rw [List.length_append] at hle
      rw [hr1] at h
      have h : q.offset + q.set.length > n := by simpa using h
      omega
    intro _
    have hw : (if q.offset == 0 then q.set else writeAt (f2.lbt.getD []) q.offset q.set) = b0 ++ q.set := by
      rcases hf with ⟨h0, rfl, _⟩ | ⟨h0, _, _, hb⟩
      · simp [h0]
      · have hne : (q.offset == 0) = false := by simp [h0]
        rw [hne, hb, hq]
        exact writeAt_end _ _
    apply wp_bind
    apply wp_wrOr
    · intro f3 hf3
      cases hf3
      rw [hw]
      apply wp_bind
      apply wp_mod
      apply wp_ite <;> intro hfin
      · apply wp_bind
        apply wp_mod
        wzeta
        apply wp_bind
        refine wp_ok_rdOr (a := b0 ++ q.set) rfl ?_
        apply wp_bind
        have hn : (b0 ++ q.set).length = n := by
          have := eq_of_beq hfin
          rw [List.length_append, ← hq, this, hr1]
        have hse := hs hn
        unfold Sealed at hse
        rw [hn] at hse
        apply wp_failIf
        · intro h
          rw [hr1] at h
          have h : ((x.sha ((b0 ++ q.set).take (n - 16))).take 16 != ((b0 ++ q.set).drop (n - 16)).take 16) = true := h
          rw [hse, List.take_take, Nat.min_self, bne_self_eq_false] at h
          cases h
        intro _
        apply wp_bind
        apply wp_wrOr
        · intro f4 hf4
          cases hf4
          exact wp_pure rfl
        · intro h; cases h
        · intro h; cases h
        · intro h; cases h
      · exact wp_pure rfl
    · intro h; cases h
    · intro h; cases h
    · intro h; cases h
  unfold lbSet
  show wp allOk _ _ _ _ f r
  wzeta
  rcases hf with ⟨h0, hb, hn⟩ | ⟨h0, _, h2, _⟩
  · rw [if_pos (by simp [h0])]
    apply wp_bind
    apply wp_mod
    apply key
    rw [hb, hn]
    rfl
  · rw [if_neg (by simp [h0])]
    exact key r h2

/-- The requests that send the fragments `l` of an array of `n` bytes, the first at offset `off`. -/
def fragments (n : Nat) : Nat → List Bytes → List LbReq
  | _, [] => []
  | off, b :: l => ⟨none, b, off, n, none, none⟩ :: fragments n (off + b.length) l

/-- Sending them, without faults. -/
def sending (i : In) (l : List LbReq) : List (Op × Env) := l.map fun q => (.cbor i (.lb (.ok q)), fun _ => .ok)

theorem send_step {s : St} {i : In} {q : LbReq} {n : Nat} {b0 : Bytes} (hg : q.get = none) (hf : Follows s.flash s.ram q n b0)
    (hpin : rdCert (·.pin) s.flash = some []) (hs : (b0 ++ q.set).length = n → Sealed x (b0 ++ q.set)) :
    (step x s (.cbor i (.lb (.ok q))) fun _ => .ok).2 = .resp .empty ∧
    (step x s (.cbor i (.lb (.ok q))) fun _ => .ok).1.flash.cert = s.flash.cert ∧
    ((b0 ++ q.set).length ≠ n → (step x s (.cbor i (.lb (.ok q))) fun _ => .ok).1.ram.lb = ⟨(b0 ++ q.set).length, n⟩ ∧
      (step x s (.cbor i (.lb (.ok q))) fun _ => .ok).1.flash.lbt = some (b0 ++ q.set)) ∧
    ((b0 ++ q.set).length = n → (step x s (.cbor i (.lb (.ok q))) fun _ => .ok).1.flash.lb = some (b0 ++ q.set)) := by
  have hf' : Follows s.flash (aged i s.ram) q n b0 := hf
  have huniq : ∀ n' b', Follows s.flash (aged i s.ram) q n' b' → n' = n ∧ b' = b0 := by
    rintro n' b' ⟨_, h'⟩
    obtain ⟨_, h⟩ := hf'
    rcases h with ⟨h0, rfl, rfl⟩ | ⟨h0, _, h2, h3⟩
    · rcases h' with ⟨_, rfl, rfl⟩ | ⟨h0', _⟩
      · exact ⟨rfl, rfl⟩
      · exact absurd h0 h0'
    · rcases h' with ⟨h0', _⟩ | ⟨_, _, h2', h3'⟩
      · exact absurd h0' h0
      · rw [h3] at h3'
        cases h3'
        rw [h2] at h2'
        cases h2'
        exact ⟨rfl, rfl⟩
  refine cbor_wp (s := s) (i := i) (q := .lb (.ok q)) (env := fun _ => .ok) (P := fun p : St × Out => p.2 = .resp .empty ∧
    p.1.flash.cert = s.flash.cert ∧ ((b0 ++ q.set).length ≠ n → p.1.ram.lb = ⟨(b0 ++ q.set).length, n⟩ ∧
      p.1.flash.lbt = some (b0 ++ q.set)) ∧ ((b0 ++ q.set).length = n → p.1.flash.lb = some (b0 ++ q.set)))
    (A := allOk) (fun _ => rfl) (by
      show wp _ (largeBlobs x i (.ok q)) _ _ _ _ _
      unfold largeBlobs
      simp only [hg]
      exact wp_and (ok_lbWrite hf' hpin hs) (wp_lbWrite x i q (by
        intro h0
        obtain ⟨_, h⟩ := hf'
        rcases h with ⟨h, _⟩ | ⟨_, _, h2, h3⟩
        · exact absurd h h0
        · exact Or.inr ⟨n, b0, h2, h3⟩))) ?_ ?_ ?_ ?_
  · rintro a f r ⟨hc, n', b', hfo, rfl, h⟩
    obtain ⟨rfl, rfl⟩ := huniq n' b' hfo
    refine ⟨rfl, hc, ?_, ?_⟩
    · intro hne
      rcases h with ⟨_, h2, h3, _⟩ | ⟨h, _⟩
      · exact ⟨h3, h2⟩
      · exact absurd h.len hne
    · intro he
      rcases h with ⟨_, _, _, h4⟩ | ⟨h, _⟩
      · exact absurd he h4
      · exact h.lb
  · rintro _ _ _ ⟨h, _⟩; exact h.elim
  · rintro _ _ _ ⟨h, _⟩; exact h.elim
  · rintro _ _ ⟨h, _⟩; exact h.elim

theorem send_rest {s : St} {i : In} {n : Nat} {b0 : Bytes} (l : List Bytes) (h1 : s.ram.lb = ⟨b0.length, n⟩)
    (h2 : s.flash.lbt = some b0) (h0 : b0.length ≠ 0) (hpin : rdCert (·.pin) s.flash = some [])
    (hn : (b0 ++ l.flatten).length = n) (hne : ∀ b ∈ l, b ≠ []) (hl : l ≠ []) (hs : Sealed x (b0 ++ l.flatten)) :
    (∀ o ∈ (run x s (sending i (fragments n b0.length l))).2, o = .resp .empty) ∧
    (run x s (sending i (fragments n b0.length l))).1.flash.lb = some (b0 ++ l.flatten) := by
  induction l generalizing s b0 with
  | nil => exact absurd rfl hl
  | cons b l ih =>
    have hbne : b.length ≠ 0 := fun h => hne b (List.mem_cons_self ..) (List.eq_nil_of_length_eq_zero h)
    have hfl : (b0 ++ (b :: l).flatten) = (b0 ++ b) ++ l.flatten := by simp
    have hle : (b0 ++ b).length ≤ n := by
      rw [← hn, hfl, List.length_append (as := b0 ++ b)]
      omega
    have hnil : (b0 ++ b).length = n → l = [] := by
      intro h
      cases l with
      | nil => rfl
      | cons c l =>
        exfalso
        have : c.length ≠ 0 := fun h => hne c (by simp) (List.eq_nil_of_length_eq_zero h)
        rw [hfl, List.length_append, h] at hn
        have hn2 : (c :: l).flatten.length = 0 := by omega
        simp at hn2
        exact this (by rw [hn2.1]; rfl)
    have := send_step (x := x) (s := s) (i := i) (q := ⟨none, b, b0.length, n, none, none⟩) (n := n) (b0 := b0) rfl
      ⟨hle, Or.inr ⟨h0, rfl, h1, h2⟩⟩ hpin (by
        intro h
        have := hnil h
        subst this
        simpa using hs)
    obtain ⟨a1, a2, a3, a4⟩ := this
    generalize hst : step x s (.cbor i (.lb (.ok ⟨none, b, b0.length, n, none, none⟩))) (fun _ => .ok) = p at a1 a2 a3 a4
    have hrun : run x s (sending i (fragments n b0.length (b :: l))) =
        ((run x p.1 (sending i (fragments n (b0.length + b.length) l))).1,
          p.2 :: (run x p.1 (sending i (fragments n (b0.length + b.length) l))).2) := by
      rw [← hst]
      rfl
    rw [hrun]
    by_cases hfin : (b0 ++ b).length = n
    · have := hnil hfin
      subst this
      refine ⟨?_, ?_⟩
      · intro o ho
        rcases List.mem_cons.mp ho with rfl | ho
        · exact a1
        · cases ho
      · show p.1.flash.lb = _
        rw [a4 hfin]
        simp
    · obtain ⟨b1, b2⟩ := a3 hfin
      have hl' : l ≠ [] := by
        rintro rfl
        apply hfin
        rw [← hn]
        simp
      have := ih (s := p.1) (b0 := b0 ++ b) b1 b2 (by rw [List.length_append]; omega)
        (by unfold rdCert; rw [a2]; exact hpin) (by rw [← hfl]; exact hn) (fun c hc => hne c (List.mem_cons_of_mem _ hc)) hl'
        (by rw [← hfl]; exact hs)
      rw [List.length_append] at this
      refine ⟨?_, ?_⟩
      · intro o ho
        rcases List.mem_cons.mp ho with rfl | ho
        · exact a1
        · exact this.1 o ho
      · show (run x p.1 _).1.flash.lb = _
        rw [this.2, hfl]

/-- Sending a sealed array in any non-empty fragments, without faults and without a PIN, stores it. -/
theorem C62_stored (s : St) (i : In) (l : List Bytes) (hpin : rdCert (·.pin) s.flash = some []) (hne : ∀ b ∈ l, b ≠ [])
    (hl : l ≠ []) (hs : Sealed x l.flatten) :
    (∀ o ∈ (run x s (sending i (fragments l.flatten.length 0 l))).2, o = .resp .empty) ∧
    (run x s (sending i (fragments l.flatten.length 0 l))).1.flash.lb = some l.flatten := by
  cases l with
  | nil => exact absurd rfl hl
  | cons b l =>
    have hbne : b.length ≠ 0 := fun h => hne b (List.mem_cons_self ..) (List.eq_nil_of_length_eq_zero h)
    generalize hn : (b :: l).flatten.length = n
    have hfl : (b :: l).flatten = b ++ l.flatten := by simp
    have hnil : b.length = n → l = [] := by
      intro h
      cases l with
      | nil => rfl
      | cons c l =>
        exfalso
        have : c.length ≠ 0 := fun h => hne c (by simp) (List.eq_nil_of_length_eq_zero h)
        rw [hfl, List.length_append, h] at hn
        have hn2 : (c :: l).flatten.length = 0 := by omega
        simp at hn2
        exact this (by rw [hn2.1]; rfl)
    have := send_step (x := x) (s := s) (i := i) (q := ⟨none, b, 0, n, none, none⟩) (n := n) (b0 := []) rfl
      ⟨by show b.length ≤ n; rw [← hn, hfl, List.length_append]; omega, Or.inl ⟨rfl, rfl, rfl⟩⟩ hpin (by
        intro h
        have := hnil h
        subst this
        simpa using hs)
    obtain ⟨a1, a2, a3, a4⟩ := this
    generalize hst : step x s (.cbor i (.lb (.ok ⟨none, b, 0, n, none, none⟩))) (fun _ => .ok) = p at a1 a2 a3 a4
    have hrun : run x s (sending i (fragments n 0 (b :: l))) =
        ((run x p.1 (sending i (fragments n b.length l))).1, p.2 :: (run x p.1 (sending i (fragments n b.length l))).2) := by
      rw [← hst]
      show ((run x _ (sending i (fragments n (0 + b.length) l))).1, _) = _
      rw [Nat.zero_add]
      rfl
    rw [hrun]
    by_cases hfin : b.length = n
    · have := hnil hfin
      subst this
      refine ⟨?_, ?_⟩
      · intro o ho
        rcases List.mem_cons.mp ho with rfl | ho
        · exact a1
        · cases ho
      · show p.1.flash.lb = _
        rw [a4 hfin]
        simp
    · obtain ⟨b1, b2⟩ := a3 hfin
      have hl' : l ≠ [] := by
        rintro rfl
        apply hfin
        rw [← hn]
        simp
      have := send_rest (x := x) (s := p.1) (i := i) (b0 := b) l b1 b2 hbne (by unfold rdCert; rw [a2]; exact hpin)
        (by rw [← hfl]; exact hn) (fun c hc => hne c (List.mem_cons_of_mem _ hc)) hl' (by rw [← hfl]; exact hs)
      refine ⟨?_, ?_⟩
      · intro o ho
        rcases List.mem_cons.mp ho with rfl | ho
        · exact a1
        · exact this.1 o ho
      · show (run x p.1 _).1.flash.lb = _
        rw [this.2, hfl]

section
open Toy
/-- A sealed array of 20 bytes, in two fragments. -/
def part1 : Bytes := [1, 2, 3, 4, 1, 2, 3]
def part2 : Bytes := [4] ++ List.replicate 12 0
def writeBlob (off : Nat) (b : Bytes) : Req := .lb (.ok ⟨none, b, off, 20, none, none⟩)

example : Sealed ext [part1, part2].flatten ∧ rdCert (·.pin) produced.flash = some [] ∧ produced.ram.lb.off = 0 := by
  refine ⟨?_, by decide +kernel, by decide +kernel⟩
  unfold Sealed
  decide +kernel

/-- Both fragments: stored, and read back.  A cut in the second: the old array, and the reception is over. A
wrong byte: refused. -/
example :
    (run ext produced (hist [(1, writeBlob 0 part1), (2, .info), (2, writeBlob 5 part1), (3, writeBlob 7 part2),
      (4, .lb (.ok ⟨some 5, [], 3, 0, none, none⟩))])).2 =
      [.resp .empty, .resp (.info false), .err Code.invalidSeq, .resp .empty, .resp (.config [4, 1, 2, 3, 4])] ∧
    (run ext produced [(.cbor (env 1) (writeBlob 0 part1), fine), (.cbor (env 2) (writeBlob 7 part2), cutAt 3),
      (.powerOn (env 0), fine), (.cbor (env 2) (writeBlob 7 part2), fine)]).2 =
      [.resp .empty, .cut, .done, .err Code.invalidSeq] ∧
    (run ext produced [(.cbor (env 1) (writeBlob 0 part1), fine), (.cbor (env 2) (writeBlob 7 part2), cutAt 3)]).1.flash.lb =
      some emptyLb ∧
    (run ext produced (hist [(1, writeBlob 0 part1), (3, writeBlob 7 (List.replicate 13 0))])).2 =
      [.resp .empty, .err Code.integrity] := by
  decide +kernel
end
end Verif.Ctap
