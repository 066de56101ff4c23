import Verif.Props.CtapStore
/-
A stored credential stays where it is until it is deleted or replaced, and one that is not in the store does not
come back.
-/
namespace Verif.Ctap
open Cmd

variable {x : Ext} {α : Type} {A : Fault → Prop} {f : Flash} {r : Ram}

/-- Slot `p` holds a credential with id `c` for user `uid`, and no update is pending for it. -/
structure SafeAt (c uid : Bytes) (p : Nat) (f : Flash) : Prop where
  file : ∃ recs a d, f.dc = some ⟨recs, some a⟩ ∧ LiveAt recs p d ∧ d.cid = c ∧ d.user.id = uid ∧
    ((a.add || a.del) = true → a.index.toNat ≠ p) ∧ recs.length ≤ 64

theorem SafeAt.keep {c uid : Bytes} {p : Nat} {f f' : Flash} {r r' : Ram} (h : SafeAt c uid p f) (k : Keep f r f' r') : SafeAt c uid p f' := by
  obtain ⟨recs, a, d, h1, h2⟩ := h
  exact ⟨recs, a, d, k.1.trans h1, h2⟩

/-- However it ends, `S` holds. -/
abbrev holdsAfter (A : Fault → Prop) (S : Flash → Prop) (m : M α) (f : Flash) (r : Ram) : Prop :=
  wp A m (fun _ f' _ => S f') (fun _ f' _ => S f') (fun f' _ => S f') f r

theorem safe_keep {c uid : Bytes} {p : Nat} {m : M α} (h : Rel Keep m) (hs : SafeAt c uid p f) : holdsAfter A (SafeAt c uid p) m f r :=
  wp_mono (h A f r) (fun _ _ _ k => hs.keep k) (fun _ _ _ k => hs.keep k) (fun _ _ k => hs.keep k)

theorem SafeAt.record {c uid : Bytes} {p j : Nat} {recs : List Dc} {a : Attr} {d d' : Dc} {f : Flash} (hl : LiveAt recs p d) (hc : d.cid = c) (hu : d.user.id = uid)
    (ha : (a.add || a.del) = true → a.index.toNat ≠ p) (hn : recs.length ≤ 64) (hj : j ≠ p) (hjl : j ≤ recs.length) (hj64 : j < 64) :
    SafeAt c uid p { f with dc := some ⟨setAt recs j d', some a⟩ } := by
  refine ⟨_, a, d, rfl, ⟨?_, hl.2⟩, hc, hu, ha, length_setAt hjl 64 hj64 hn⟩
  rw [getElem?_setAt hjl, if_neg (fun e => hj e.symm)]
  exact hl.1

theorem safe_attr {c uid : Bytes} {p : Nat} {a : Attr} {e : Err} (hs : SafeAt c uid p f) (ha : (a.add || a.del) = true → a.index.toNat ≠ p) :
    holdsAfter A (SafeAt c uid p) (Cmd.wrOr (updAttr a) e : M Unit) f r := by
  obtain ⟨recs, a', d, h1, h2, h3, h4, h5, h6⟩ := id hs
  apply wp_wr (updAttr_eq h1 a)
  · exact ⟨recs, a, d, rfl, h2, h3, h4, ha, h6⟩
  · intro _; exact hs
  · intro _; exact hs

theorem keep_meta (j : Nat) (m : Meta) (e : Err) (S : Flash → Prop) (hS : ∀ g ms, S g → S { g with dm := ms }) (hs : S f) :
    holdsAfter A S (Cmd.wrOr (updMeta j m) e : M Unit) f r := by
  apply wp_wrOr
  · intro f' h
    unfold updMeta at h
    cases hd : f.dm with
    | none => rw [hd] at h; cases h; exact hS _ _ hs
    | some g => rw [hd] at h; cases h; exact hS _ _ hs
  · intro _; exact hs
  · intro _; exact hs
  · intro _; exact hs

theorem SafeAt.meta {c uid : Bytes} {p : Nat} (g : Flash) (ms : Option (List Meta)) (h : SafeAt c uid p g) : SafeAt c uid p { g with dm := ms } := by
  obtain ⟨recs, a, d, h1, h2⟩ := h
  exact ⟨recs, a, d, h1, h2⟩

/-- The recovery does not touch other slots. -/
theorem safe_consistency {c uid : Bytes} {p : Nat} (hs : SafeAt c uid p f) : holdsAfter A (SafeAt c uid p) consistency f r := by
  obtain ⟨recs, a, d, h1, h2, h3, h4, h5, h6⟩ := id hs
  have hrecs : rdRecs f = some recs := by unfold rdRecs; rw [h1]; rfl
  have hattr : rdAttr f = some a := by unfold rdAttr; rw [h1]; rfl
  unfold consistency
  apply wp_bind
  apply wp_rd hattr
  · apply wp_ite
    · intro hp
      wzeta
      have rest : ∀ {f : Flash} {r : Ram}, SafeAt c uid p f → holdsAfter A (SafeAt c uid p) (do
          let k ← Cmd.rdOr (fun f => f.dm.map (·.length)) (.code Code.unhandled)
          if k > 0 && a.index.toNat ≥ 64 then throw (.ub .oob)
          let (m, j) ← scanUp (fun f => f.dm)
            (fun _ m (_ : Option Meta) => if m.slots.getLsbD a.index.toNat then (some m, true) else (none, false)) k 0 none
          match m with
          | some m => Cmd.wrOr (updMeta j { m with slots := m.slots &&& ~~~(BitVec.twoPow 64 a.index.toNat) }) (.code Code.unhandled)
          | none => pure ()
          Cmd.wrOr (updAttr { a with numbers := if a.del then a.numbers - 1 else a.numbers, add := false, del := false })
            (.code Code.unhandled) : M Unit) f r := by
        intro f r hs
        have fin : ∀ {f : Flash} {r : Ram}, SafeAt c uid p f → holdsAfter A (SafeAt c uid p)
            (Cmd.wrOr (updAttr { a with numbers := if a.del then a.numbers - 1 else a.numbers, add := false, del := false })
            (.code Code.unhandled) : M Unit) f r := fun hs => safe_attr hs (fun h => by cases h)
        apply wp_bind
        refine wp_mono (safe_keep (A := A) (r := r) (Rel.rdOr _ _) hs) (fun k f r hs => ?_) (fun _ _ _ h => h) (fun _ _ h => h)
        wzeta
        apply wp_ite
        · intro _
          apply wp_bind
          exact wp_throw hs
        · intro _
          apply wp_bind
          refine wp_mono (safe_keep (A := A) (r := r) (Rel.scanUp _ _ _ _ _) hs) (fun k f r hs => ?_) (fun _ _ _ h => h) (fun _ _ h => h)
          obtain ⟨m, j⟩ := k
          cases m with
          | none => exact fin hs
          | some m =>
            apply wp_bind
            exact wp_mono (keep_meta _ _ _ _ SafeAt.meta hs) (fun _ f r hs => fin hs) (fun _ _ _ h => h) (fun _ _ h => h)
      apply wp_bind
      apply wp_rdF
      · intro _
        by_cases hn : ((rdRecs f).map (·.length)).getD 0 ≥ a.index.toNat + 1
        · rw [if_pos hn]
          rw [hrecs] at hn
          simp at hn
          apply wp_bind
          have hd : recs[a.index.toNat]? = some recs[a.index.toNat] := List.getElem?_eq_getElem (by omega)
          apply wp_rd (show (fun f => (rdRecs f).bind (·[a.index.toNat]?)) f = some recs[a.index.toNat] by
            show (rdRecs f).bind _ = _
            rw [hrecs]
            exact hd)
          · cases hdd : recs[a.index.toNat].deleted with
            | true =>
              simp only [Bool.not_true, Bool.false_eq_true, if_false]
              exact rest hs
            | false =>
              simp only [Bool.not_false, if_true]
              apply wp_bind
              apply wp_wr (updRec_eq h1 _ _)
              · exact rest (SafeAt.record h2 h3 h4 h5 h6 (h5 hp) (by omega) (by omega))
              · intro _; exact hs
              · intro _; exact hs
          · intro _; exact hs
          · intro _; exact hs
        · rw [if_neg hn]
          exact rest hs
      · intro _
        rw [if_neg (by simp)]
        exact rest hs
      · intro _; exact hs
    · intro _
      exact wp_pure hs
  · intro _; exact hs
  · intro _; exact hs

/-- Storing a credential of another user or relying party. -/
theorem safe_mcStore {c uid : Bytes} {p : Nat} {q : McReq} {cid : Bytes} (hs : SafeAt c uid p f)
    (hne : ¬ (Cid.rp c = q.rpHash ∧ uid = q.user.id)) : holdsAfter A (SafeAt c uid p) (mcStore q cid) f r := by
  obtain ⟨recs, a, d, h1, h2, h3, h4, h5, h6⟩ := id hs
  have hrecs : rdRecs f = some recs := by unfold rdRecs; rw [h1]; rfl
  have hattr : rdAttr f = some a := by unfold rdAttr; rw [h1]; rfl
  unfold mcStore
  apply wp_bind
  apply wp_rd (show (fun f => (rdRecs f).map (·.length)) f = some recs.length by simp [hrecs])
  · apply wp_bind
    apply wp_scanUp hrecs (fun _ => hs) (fun _ => hs) (by omega)
    rw [List.drop_zero]
    have hslot := foldUp_slot q.rpHash q.user.id recs 0 none
    generalize foldUp (slotBody q.rpHash q.user.id) recs 0 none = e at hslot
    obtain ⟨fd, p0⟩ := e
    show wp A _ _ _ _ f r
    dsimp only at hslot ⊢
    have slot : ∀ p', p' = (if p0 == recs.length then fd.getD p0 else p0) →
        p' ≤ recs.length ∧ p' ≠ p := by
      intro p' hp
      rcases hslot with ⟨k, d', e1, e2, e3, e4, e5, e6⟩ | ⟨e1, e2⟩
      · rw [Nat.zero_add] at e1
        cases e1
        rw [if_neg (by simp; omega)] at hp
        subst hp
        refine ⟨by omega, fun e => hne ?_⟩
        subst e
        have := Option.some.inj (h2.1.symm.trans e3)
        subst this
        exact ⟨by rw [← h3]; exact e5, by rw [← h4]; exact e6⟩
      · rw [Nat.zero_add] at e1
        subst e1
        rw [if_pos (by simp)] at hp
        cases hfd : fd with
        | none =>
          rw [hfd] at hp
          have hp' : p' = recs.length := hp
          refine ⟨by omega, fun e => ?_⟩
          subst e
          have := h2.1
          rw [List.getElem?_eq_none (by omega)] at this
          cases this
        | some p1 =>
          rw [hfd] at hp e2
          have hp' : p' = p1 := hp
          rcases e2 p1 rfl with e3 | ⟨k, d', e3, e4, e5⟩
          · cases e3
          · have hkl : k < recs.length := (List.getElem?_eq_some_iff.mp e4).1
            refine ⟨by omega, fun e => ?_⟩
            have h5 := h2.1
            rw [← e, hp', e3, Nat.zero_add, e4] at h5
            have h6 := h2.2
            rw [← Option.some.inj h5, e5] at h6
            cases h6
    generalize (if p0 == recs.length then fd.getD p0 else p0) = p' at slot
    obtain ⟨hple, hpp⟩ := slot p' rfl
    apply wp_bind
    apply wp_failIf
    · intro _; exact hs
    intro hp
    have hp : p' < 64 := by simpa using hp
    have hpi : (UInt8.ofNat p').toNat = p' := by
      rw [UInt8.toNat_ofNat']
      exact Nat.mod_eq_of_lt (by omega)
    apply wp_bind
    apply wp_rd hattr
    · apply wp_bind
      have hpend : ({ a with add := true, index := UInt8.ofNat p' } : Attr).add || ({ a with add := true, index := UInt8.ofNat p' } : Attr).del → ({ a with add := true, index := UInt8.ofNat p' } : Attr).index.toNat ≠ p := by
        intro _
        show (UInt8.ofNat p').toNat ≠ p
        rw [hpi]
        exact hpp
      apply wp_wr (updAttr_eq h1 _)
      · have hs1 : SafeAt c uid p { f with dc := some ⟨recs, some { a with add := true, index := UInt8.ofNat p' }⟩ } :=
          ⟨recs, _, d, rfl, h2, h3, h4, hpend, h6⟩
        apply wp_bind
        apply wp_wr (updRec_eq rfl _ _)
        · have hs2 := SafeAt.record (f := f) (d' := ⟨cid, q.user, false, q.lbk,
            match q.credBlob with
            | some b => if b.length ≤ 32 then b else []
            | none => []⟩) h2 h3 h4 hpend h6 hpp hple hp
          apply wp_bind
          refine wp_mono (safe_keep (A := A) (r := r) (Rel.rdOr _ _) hs2) (fun k f r hs => ?_) (fun _ _ _ h => h) (fun _ _ h => h)
          apply wp_bind
          refine wp_mono (safe_keep (A := A) (r := r) (Rel.scanUp _ _ _ _ _) hs) (fun k' f r hs => ?_) (fun _ _ _ h => h) (fun _ _ h => h)
          obtain ⟨⟨fm, m⟩, j⟩ := k'
          dsimp only
          apply wp_bind
          refine wp_mono (keep_meta _ _ _ _ SafeAt.meta hs) (fun _ f r hs => ?_) (fun _ _ _ h => h) (fun _ _ h => h)
          refine safe_attr hs fun _ => ?_
          show (UInt8.ofNat p').toNat ≠ p
          rw [hpi]
          exact hpp
        · intro _; exact hs1
        · intro _; exact hs1
      · intro _; exact hs
      · intro _; exact hs
    · intro _; exact hs
    · intro _; exact hs
  · intro _; exact hs
  · intro _; exact hs

/-- The search for a credential, whatever else is known of the store. -/
theorem find_cmFind {q : CmReq} {n : Byte} {recs : List Dc} (hrecs : rdRecs f = some recs)
    {Q : Dc × Nat → Flash → Ram → Prop} {E : Err → Flash → Ram → Prop} {X : Flash → Ram → Prop}
    (hQ : ∀ d p r', LiveAt recs p d → d.cid = q.cid → Q (d, p) f r')
    (hE : ∀ e r', E e f r') (hX : ∀ r', X f r') :
    wp A (cmFind q n) Q E X f r := by
  unfold cmFind
  apply wp_bind
  apply wp_get
  apply wp_bind
  apply wp_failIf
  · intro _; exact hE _ _
  intro _
  apply wp_bind
  apply wp_failIf
  · intro _; exact hE _ _
  intro _
  apply wp_bind
  apply wp_rd (show (fun f => (rdRecs f).map (·.length)) f = some recs.length by simp [hrecs])
  · apply wp_bind
    apply wp_scanUp hrecs (fun _ => hE _ _) (fun _ => hX _) (by omega)
    rw [List.drop_zero]
    rcases foldUp_first (fun d : Dc => !d.deleted && d.cid == q.cid) (cidBody q.cid) (fun _ d _ => by
      unfold cidBody
      cases d.deleted <;> simp) recs 0 with ⟨p, d, e, h1, h2, _⟩ | ⟨e, _⟩
    · rw [e, Nat.zero_add]
      simp at h2
      apply wp_bind
      apply wp_mod
      exact wp_pure (hQ d p _ ⟨h1, h2.1⟩ h2.2)
    · rw [e]
      apply wp_bind
      apply wp_mod
      exact wp_fail (hE _ _)
  · intro _; exact hE _ _
  · intro _; exact hX _

/-- Changing user information. -/
theorem safe_cmUpdate {c uid : Bytes} {p : Nat} {q : CmReq} {n : Byte} (hs : SafeAt c uid p f) :
    holdsAfter A (SafeAt c uid p) (cmUpdate q n) f r := by
  obtain ⟨recs, a, d, h1, h2, h3, h4, h5, h6⟩ := id hs
  have hrecs : rdRecs f = some recs := by unfold rdRecs; rw [h1]; rfl
  unfold cmUpdate
  apply wp_bind
  apply find_cmFind hrecs
  · intro d' p' r' hd' hc'
    have hpl : p' < recs.length := (List.getElem?_eq_some_iff.mp hd'.1).1
    show wp A _ _ _ _ f r'
    apply wp_bind
    apply wp_failIf
    · intro _; exact hs
    intro hu
    apply wp_bind
    apply wp_wr (updRec_eq h1 _ _)
    · apply wp_pure
      by_cases hpp : p' = p
      · subst hpp
        have := Option.some.inj (h2.1.symm.trans hd'.1)
        subst this
        refine ⟨_, a, { d with user := q.user }, rfl, ⟨?_, h2.2⟩, h3, ?_, h5, length_setAt (by omega) 64 (by omega) h6⟩
        · rw [getElem?_setAt (by omega), if_pos rfl]
        · rw [← h4]
          have : d.user.id = q.user.id := by simpa using hu
          exact this.symm
      · exact SafeAt.record h2 h3 h4 h5 h6 hpp (by omega) (by omega)
    · intro _; exact hs
    · intro _; exact hs
  · intro _ _; exact hs
  · intro _; exact hs

/-- Deleting another credential. -/
theorem safe_cmDelete {c uid : Bytes} {p : Nat} {q : CmReq} {n : Byte} (hs : SafeAt c uid p f) (hne : q.cid ≠ c) :
    holdsAfter A (SafeAt c uid p) (cmDelete q n) f r := by
  obtain ⟨recs, a, d, h1, h2, h3, h4, h5, h6⟩ := id hs
  have hrecs : rdRecs f = some recs := by unfold rdRecs; rw [h1]; rfl
  have hattr : rdAttr f = some a := by unfold rdAttr; rw [h1]; rfl
  unfold cmDelete
  apply wp_bind
  apply find_cmFind hrecs
  · intro d' p' r' hd' hc'
    have hpl : p' < recs.length := (List.getElem?_eq_some_iff.mp hd'.1).1
    have hpp : p' ≠ p := by
      intro e
      subst e
      have := Option.some.inj (h2.1.symm.trans hd'.1)
      subst this
      exact hne (hc'.symm.trans h3)
    have hpi : (UInt8.ofNat p').toNat = p' := by
      rw [UInt8.toNat_ofNat']
      exact Nat.mod_eq_of_lt (by omega)
    have hpend : ({ a with index := UInt8.ofNat p', del := true } : Attr).add || ({ a with index := UInt8.ofNat p', del := true } : Attr).del → ({ a with index := UInt8.ofNat p', del := true } : Attr).index.toNat ≠ p := by
      intro _
      show (UInt8.ofNat p').toNat ≠ p
      rw [hpi]
      exact hpp
    show wp A _ _ _ _ f r'
    apply wp_bind
    apply wp_rd hattr
    · apply wp_bind
      apply wp_wr (updAttr_eq h1 _)
      · have hs1 : SafeAt c uid p { f with dc := some ⟨recs, some { a with index := UInt8.ofNat p', del := true }⟩ } :=
          ⟨recs, _, d, rfl, h2, h3, h4, hpend, h6⟩
        apply wp_bind
        apply wp_wr (updRec_eq rfl _ _)
        · have hs2 := SafeAt.record (f := f) (d' := { d' with deleted := true }) h2 h3 h4 hpend h6 hpp (by omega) (by omega)
          have fin : ∀ {f : Flash} {r : Ram}, SafeAt c uid p f → holdsAfter A (SafeAt c uid p) (do
              Cmd.wrOr (updAttr { a with index := UInt8.ofNat p', numbers := a.numbers - 1, del := false }) (.code Code.unhandled)
              return .empty : M Resp) f r := by
            intro f r hs
            apply wp_bind
            refine wp_mono (safe_attr hs fun _ => ?_) (fun _ _ _ hs => wp_pure hs) (fun _ _ _ h => h) (fun _ _ h => h)
            show (UInt8.ofNat p').toNat ≠ p
            rw [hpi]
            exact hpp
          apply wp_bind
          refine wp_mono (safe_keep (A := A) (r := r') (Rel.rdOr _ _) hs2) (fun k f r hs => ?_) (fun _ _ _ h => h) (fun _ _ h => h)
          apply wp_bind
          refine wp_mono (safe_keep (A := A) (r := r) (Rel.scanUp _ _ _ _ _) hs) (fun k' f r hs => ?_) (fun _ _ _ h => h) (fun _ _ h => h)
          obtain ⟨m, j⟩ := k'
          cases m with
          | none => exact fin hs
          | some m =>
            apply wp_bind
            exact wp_mono (keep_meta _ _ _ _ SafeAt.meta hs) (fun _ f r hs => fin hs) (fun _ _ _ h => h) (fun _ _ h => h)
        · intro _; exact hs1
        · intro _; exact hs1
      · intro _; exact hs
      · intro _; exact hs
    · intro _; exact hs
    · intro _; exact hs
  · intro _ _; exact hs
  · intro _; exact hs

/-! ### Commands -/

/-- A command that keeps `S`, as a frame. -/
def Keeps (S : Flash → Prop) : FRel := fun f _ f' _ => S f → S f'
instance {S : Flash → Prop} : Pre (Keeps S) where
  refl _ _ := id
  trans _ _ _ _ _ _ a b := b ∘ a

theorem keeps_of {R : FRel} {S : Flash → Prop} {m : M α} (h0 : Rel R m) (h : ∀ A f r, S f → holdsAfter A S m f r) : Rel (Keeps S) m := by
  intro A f r
  by_cases hs : S f
  · exact wp_mono (h A f r hs) (fun _ _ _ h _ => h) (fun _ _ _ h _ => h) (fun _ _ h _ => h)
  · exact wp_mono (h0 A f r) (fun _ _ _ _ h => absurd h hs) (fun _ _ _ _ h => absurd h hs) (fun _ _ _ h => absurd h hs)

/-- `S` depends on the credential store only. -/
class OfStore (S : Flash → Prop) : Prop where
  keep : ∀ f f' : Flash, f'.dc = f.dc → S f → S f'

instance {c uid : Bytes} {p : Nat} : OfStore (SafeAt c uid p) where
  keep f f' h hs := by
    obtain ⟨recs, a, d, h1, h2⟩ := hs
    exact ⟨recs, a, d, h.trans h1, h2⟩

theorem keeps_keep {S : Flash → Prop} [OfStore S] {m : M α} (h : Rel Keep m) : Rel (Keeps S) m :=
  h.mono fun f _ f' _ k => OfStore.keep f f' k.1

section
variable {S : Flash → Prop} [OfStore S] (x : Ext) (i : In)

theorem keeps_makeCredential (q : Except Byte McReq) (h : Rel (Keeps S) consistency)
    (h' : ∀ q' uv, q = .ok q' → Rel (Keeps S) (mcFinish x i q' uv)) : Rel (Keeps S) (makeCredential x i q) := by
  unfold makeCredential
  cases q with
  | error c => exact Rel.fail _
  | ok q =>
    rels (first | exact h | exact h' _ _ rfl | exact keeps_keep (kp_same (same_emptyAuth _ _)) | exact keeps_keep (kp_same same_hasPin) | exact keeps_keep (kp_mcAuth x i _) | exact keeps_keep (kp_same (same_mcExclude x i _ _ _ _)) | exact keeps_keep (kp_takePresence i _))

theorem keeps_getAssertion (q : Except Byte GaReq) (h : Rel (Keeps S) consistency) : Rel (Keeps S) (getAssertion x i q) := by
  unfold getAssertion
  rels (first | exact h | exact keeps_keep (kp_gaCheck x i _) | exact keeps_keep (kp_gaFinish x i) | (intro _ _; exact id))

theorem keeps_credMgmt (q : Except Byte CmReq) (h : Rel (Keeps S) consistency)
    (h6 : ∀ q' n, q = .ok q' → q'.sub = 6 → Rel (Keeps S) (cmDelete q' n)) (h7 : ∀ q' n, q = .ok q' → Rel (Keeps S) (cmUpdate q' n)) :
    Rel (Keeps S) (credMgmt x i q) := by
  unfold credMgmt
  cases q with
  | error c => exact Rel.fail _
  | ok q =>
    have main : ∀ n, Rel (Keeps S) (
        if q.sub == 1 then do
          let r ← Cmd.get
          failIf r.tok.rp.isSome Code.pinAuthInvalid
          return .credsMeta n.toNat (64 - (n.toNat : Int))
        else if q.sub == 2 then cmRpsBegin n
        else if q.sub == 3 then cmNextRp q
        else if q.sub == 4 then cmCredsBegin x q n
        else if q.sub == 5 then cmNextCred x q
        else if q.sub == 6 then cmDelete q n
        else if q.sub == 7 then cmUpdate q n
        else return .empty : M Resp) := by
      intro n
      obtain ⟨l1, l2, l3, l4, _⟩ := kp_cmList x q n
      apply Rel.ite <;> intro _
      · rels (exact keeps_keep (Rel.get))
      apply Rel.ite <;> intro _
      · exact keeps_keep l1
      apply Rel.ite <;> intro _
      · exact keeps_keep l2
      apply Rel.ite <;> intro _
      · exact keeps_keep l3
      apply Rel.ite <;> intro _
      · exact keeps_keep l4
      apply Rel.ite <;> intro h
      · exact h6 q n rfl (eq_of_beq h)
      apply Rel.ite <;> intro _
      · exact h7 q n rfl
      · exact Rel.pure _
    apply Rel.bind h
    intro _
    apply Rel.ite <;> intro _
    · exact Rel.bind (keeps_keep (kp_cmAuth x i q)) main
    · exact main 0

end

end Verif.Ctap
