import Verif.Lemmas.CtapGa
import Verif.Lemmas.CtapStep
/-
What a response means, for each command.
-/
namespace Verif.Ctap
open Cmd

section
variable (x : Ext) (i : In) {A : Fault → Prop} {f : Flash} {r : Ram}

theorem wp_true {α : Type} (m : M α) :
    wp (fun _ => True) m (fun _ _ _ => True) (fun _ _ _ => True) (fun _ _ => True) f r := by
  intro env henv
  split
  · trivial
  · exact ⟨trivial, fun _ => trivial⟩
  · exact ⟨trivial, fun _ => trivial⟩

theorem wp_process {q : Req} {Q : Resp → Flash → Ram → Prop}
    (h : wp A (handle x i q) Q (fun _ _ _ => True) (fun _ _ => True) f (aged i r)) :
    wp A (process x i q) (fun a f' r' => ∃ r1, Q a f' r1 ∧ r' = { r1 with lastCmd := q.cmd })
      (fun _ _ _ => True) (fun _ _ => True) f r := by
  unfold process
  apply wp_bind
  apply wp_mod
  apply wp_bind
  apply wp_catch
  refine wp_mono h ?_ ?_ (fun _ _ _ => trivial)
  · intro a f' r' h
    apply wp_bind
    apply wp_mod
    exact wp_pure ⟨r', h, rfl⟩
  · intro e f' r' _
    cases e with
    | code c =>
      apply wp_bind
      apply wp_mod
      exact wp_fail trivial
    | ub u => exact wp_throw trivial

/-- A response of a CBOR command satisfies the postcondition of its handler. -/
theorem resp_of {s : St} {q : Req} {env : Env} {a : Resp} {Q : Resp → Flash → Ram → Prop}
    (h : wp (fun _ => True) (handle x i q) Q (fun _ _ _ => True) (fun _ _ => True) s.flash (aged i s.ram))
    (ho : (step x s (.cbor i q) env).2 = .resp a) :
    ∃ r1, Q a (step x s (.cbor i q) env).1.flash r1 ∧ (step x s (.cbor i q) env).1.ram = { r1 with lastCmd := q.cmd } := by
  revert ho
  unfold step
  refine exec_wp (P := fun p : St × Out => p.2 = .resp a → ∃ r1, Q a p.1.flash r1 ∧ p.1.ram = { r1 with lastCmd := q.cmd })
    (A := fun _ => True) (fun _ => trivial) (wp_process x i h) ?_ ?_ ?_ ?_
  · intro a' f' r' h ha
    cases ha
    exact h
  · intro _ _ _ _ h
    cases h
  · intro _ _ _ _ h
    cases h
  · intro _ _ _ h
    cases h

/-! ### Credential management and large blobs -/

theorem wp_cmAuth (q : CmReq) {Q : Byte → Flash → Ram → Prop}
    (h : ∀ n, MayManage x r.tok permCm (q.sub :: q.params) q.pinAuth q.proto → Q n f
      { r with cm := { r.cm with last := q.sub }, tok := { r.tok with timeout := i.tick + 30000 } }) :
    wp A (cmAuth x i q) Q (fun _ _ _ => True) (fun _ _ => True) f r := by
  unfold cmAuth
  apply wp_bind
  apply wp_mod
  apply wp_bind
  apply wp_rdOr
  · intro a _
    apply wp_bind
    apply wp_failIf
    · intro _; trivial
    intro _
    apply wp_bind
    apply wp_get
    apply wp_bind
    apply wp_failIf
    · intro _; trivial
    intro _
    apply wp_bind
    apply wp_verifyToken
    · intro _
      apply wp_bind
      exact wp_fail trivial
    intro hu
    apply wp_bind
    apply wp_failIf
    · intro _; trivial
    intro hm
    apply wp_bind
    apply wp_failIf
    · intro _; trivial
    intro hp
    apply wp_pure
    refine h _ ⟨hu, ?_, authenticates_of (by simpa using hm)⟩
    unfold Tok.has at hp
    simpa using hp
  all_goals (intros; trivial)

theorem wp_cmFind (q : CmReq) (n : Byte) {Q : Dc × Nat → Flash → Ram → Prop}
    (h : ∀ d, (∀ h, r.tok.rp = some h → h = Cid.rp q.cid) → ∀ r', Q d f r') :
    wp A (cmFind q n) Q (fun _ _ _ => True) (fun _ _ => True) f r := by
  unfold cmFind
  apply wp_bind
  apply wp_get
  apply wp_bind
  apply wp_failIf
  · intro _; trivial
  intro hr
  have hr' := rpOk_iff (by simpa using hr)
  cps
  all_goals try trivial
  rename_i n hn
  cases hl : rdRecs f with
  | none => rw [hl] at hn; cases hn
  | some recs =>
    rw [hl] at hn
    cases hn
    apply wp_scanUp hl (by intros; trivial) (by intros; trivial) (by simp)
    cps
    all_goals first
      | trivial
      | exact h _ hr' _

theorem wp_cm (q : CmReq) (hq : cmAuthed q.sub = true) :
    wp (fun _ => True) (credMgmt x i (.ok q)) (fun _ _ _ => MayManage x r.tok permCm (q.sub :: q.params) q.pinAuth q.proto ∧ cmScope q r.tok)
      (fun _ _ _ => True) (fun _ _ => True) f r := by
  unfold credMgmt
  apply wp_bind
  apply wp_frame st_consistency
  intro _ f1 r1 h1
  have hr := h1.ram
  subst hr
  show wp (fun _ => True) _ _ _ _ f1 _
  wzeta
  rw [if_pos hq]
  apply wp_bind
  apply wp_cmAuth
  intro n hm
  unfold cmScope
  apply wp_ite <;> intro h1
  · have h1 := eq_of_beq h1
    apply wp_bind
    apply wp_get
    apply wp_bind
    apply wp_failIf
    · intro _; trivial
    intro hr
    apply wp_pure
    rw [if_pos (Or.inl h1)]
    refine ⟨hm, ?_⟩
    cases h : r1.tok.rp with
    | none => rfl
    | some _ => simp [h] at hr
  apply wp_ite <;> intro h2
  · have h2 := eq_of_beq h2
    unfold cmRpsBegin
    apply wp_bind
    apply wp_get
    apply wp_bind
    apply wp_failIf
    · intro _; trivial
    intro hr
    rw [if_pos (Or.inr h2)]
    have : r1.tok.rp = none := by
      cases h : r1.tok.rp with
      | none => rfl
      | some _ => simp [h] at hr
    exact wp_mono (wp_true _) (fun _ _ _ _ => ⟨hm, this⟩) (fun _ _ _ _ => trivial) (fun _ _ _ => trivial)
  have h12 : ¬ (q.sub = 1 ∨ q.sub = 2) := by
    rintro (h | h)
    · exact h1 (by rw [h]; rfl)
    · exact h2 (by rw [h]; rfl)
  rw [if_neg h12]
  apply wp_ite <;> intro h3
  · have h3 := eq_of_beq h3
    rw [h3] at hq
    cases hq
  apply wp_ite <;> intro h4
  · have h4 := eq_of_beq h4
    unfold cmCredsBegin
    apply wp_bind
    apply wp_get
    apply wp_bind
    apply wp_failIf
    · intro _; trivial
    intro hr
    rw [if_pos h4]
    have hr' : ∀ h, r1.tok.rp = some h → h = q.rpHash := by
      have := rpOk_iff (Bool.not_eq_eq_eq_not.mp hr)
      exact this
    exact wp_mono (wp_true _) (fun _ _ _ _ => ⟨hm, hr'⟩) (fun _ _ _ _ => trivial) (fun _ _ _ => trivial)
  have h4' : ¬ q.sub = 4 := fun h => h4 (by rw [h]; rfl)
  rw [if_neg h4']
  apply wp_ite <;> intro h5
  · have h5 := eq_of_beq h5
    rw [h5] at hq
    cases hq
  apply wp_ite <;> intro h6
  · unfold cmDelete
    apply wp_bind
    apply wp_cmFind
    intro d hr r'
    exact wp_mono (wp_true _) (fun _ _ _ _ => ⟨hm, hr⟩) (fun _ _ _ _ => trivial) (fun _ _ _ => trivial)
  apply wp_ite <;> intro h7
  · unfold cmUpdate
    apply wp_bind
    apply wp_cmFind
    intro d hr r'
    exact wp_mono (wp_true _) (fun _ _ _ _ => ⟨hm, hr⟩) (fun _ _ _ _ => trivial) (fun _ _ _ => trivial)
  · unfold cmAuthed at hq
    simp only [Bool.or_eq_true, h1, h2, h4, h6, h7, or_self] at hq

theorem wp_lbAuth (q : LbReq) {Q : Unit → Flash → Ram → Prop}
    (h0 : (rdCert (·.pin) f = some []) → Q () f r)
    (h : ∀ auth proto r', q.pinAuth = some auth → q.proto = some proto →
      MayManage x r.tok permLbw (lbMsg x q) auth proto → r' = { r with tok := r'.tok } → Q () f r') :
    wp A (lbAuth x i q) Q (fun _ _ _ => True) (fun _ _ => True) f r := by
  unfold lbAuth
  apply wp_bind
  apply wp_hasPin
  · intro b ha hb
    show wp A _ _ _ _ f r
    cases b with
    | false =>
      apply wp_pure
      have hb : false = ((rdCert (·.pin) f).map fun q => !q.isEmpty).getD true := by
        rcases ha with ha | ha
        · rcases hb ha with h | h
          · cases h
          · exact h
        · exact ha
      refine h0 ?_
      cases hp : rdCert (·.pin) f with
      | none => simp [hp] at hb
      | some p =>
        cases p with
        | nil => rfl
        | cons _ _ => simp [hp] at hb
    | true =>
      simp only [Bool.not_true, Bool.false_eq_true, if_false]
      cases ha : q.pinAuth with
      | none => exact wp_fail trivial
      | some auth =>
        cases hp : q.proto with
        | none => exact wp_fail trivial
        | some proto =>
          show wp A _ _ _ _ f r
          apply wp_bind
          apply wp_get
          apply wp_bind
          apply wp_failIf
          · intro _; trivial
          intro _
          apply wp_bind
          apply wp_verifyToken
          · intro _
            apply wp_bind
            exact wp_fail trivial
          intro hu
          apply wp_bind
          apply wp_failIf
          · intro _; trivial
          intro hm
          apply wp_failIf
          · intro _; trivial
          intro hp'
          refine h _ _ _ ha hp ⟨hu, ?_, authenticates_of (by simpa using hm)⟩ rfl
          unfold Tok.has at hp'
          simpa using hp'
  · intro _; trivial

theorem wp_lbSet (q : LbReq) :
    wp (fun _ => True) (lbSet x i q) (fun _ _ _ => rdCert (·.pin) f = some [] ∨
        ∃ auth proto, q.pinAuth = some auth ∧ q.proto = some proto ∧ MayManage x r.tok permLbw (lbMsg x q) auth proto)
      (fun _ _ _ => True) (fun _ _ => True) f r := by
  have rest : ∀ r0 : Ram, r0.tok = r.tok → wp (fun _ => True) (do
      let r ← Cmd.get
      failIf (q.offset != r.lb.off) Code.invalidSeq
      lbAuth x i q
      failIf (q.offset + q.set.length > r.lb.len) Code.invalidParameter
      Cmd.wrOr (fun f => some { f with
          lbt := some (if q.offset == 0 then q.set else writeAt (f.lbt.getD []) q.offset q.set) })
        (.code Code.unhandled)
      Cmd.mod fun r => { r with lb := { r.lb with off := r.lb.off + q.set.length } }
      if q.offset + q.set.length == r.lb.len then do
        Cmd.mod fun r => { r with lb := { r.lb with len := r.lb.len - 16 } }
        let n := r.lb.len - 16
        let b ← Cmd.rdOr (fun f => f.lbt) (.code Code.unhandled)
        failIf ((x.sha (b.take n)).take 16 != (b.drop n).take 16) Code.integrity
        Cmd.wrOr (fun f => f.lbt.map fun b => { f with lb := some b, lbt := none }) (.code Code.unhandled)
        return Resp.empty
      else return Resp.empty : M Resp) (fun _ _ _ => rdCert (·.pin) f = some [] ∨
        ∃ auth proto, q.pinAuth = some auth ∧ q.proto = some proto ∧ MayManage x r.tok permLbw (lbMsg x q) auth proto)
      (fun _ _ _ => True) (fun _ _ => True) f r0 := by
    intro r0 h0
    apply wp_bind
    apply wp_get
    apply wp_bind
    apply wp_failIf
    · intro _; trivial
    intro _
    apply wp_bind
    apply wp_lbAuth
    · intro h
      exact wp_mono (wp_true _) (fun _ _ _ _ => Or.inl h) (fun _ _ _ _ => trivial) (fun _ _ _ => trivial)
    · intro auth proto r' h1 h2 h3 _
      rw [h0] at h3
      exact wp_mono (wp_true _) (fun _ _ _ _ => Or.inr ⟨auth, proto, h1, h2, h3⟩) (fun _ _ _ _ => trivial) (fun _ _ _ => trivial)
  unfold lbSet
  apply wp_ite <;> intro _
  · apply wp_bind
    apply wp_mod
    exact rest _ rfl
  · exact rest _ rfl
end
end Verif.Ctap
