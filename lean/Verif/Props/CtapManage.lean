import Verif.Lemmas.CtapManage
import Verif.Props.CtapListing
/-
Credential management is answered as a host expects: property C110.
-/
namespace Verif.Props
open Verif.Ctap Verif.Spec.Manage

/-- C110. A credentialManagement request for metadata (1), deletion (6) or new user data (7), with storage that works: it
is refused exactly for the reasons of the table, with the status of the table, and then nothing in the storage has
changed. Otherwise the answer is that of the specification, and the credentials are those that they were except for the
one that the request names: nothing else in the storage has changed. -/
theorem C110_manage (x : Ext) (s : St) (i : In) (q : CmReq) (hq : q.sub = 1 ∨ q.sub = 6 ∨ q.sub = 7) (d : Facts) (hs : Sees s i d)
    (env : Env) (he : ∀ n, env n = .ok) (o : St × Out) (ho : o = step x s (.cbor i (.cm (.ok q))) env) :
    match refusal x d q with
    | some c => o.2 = .err c ∧ o.1.flash = s.flash
    | none => o.2 = .resp (answer d q) ∧ Storing o.1.flash (after d q) ∧ o.1.flash.dm.isSome = true ∧
        o.1.flash = { s.flash with dc := o.1.flash.dc, dm := o.1.flash.dm } ∧ (q.sub ≠ 6 → o.1.flash.dm = s.flash.dm) := by
  subst ho
  refine cbor_wp (P := fun o : St × Out => match refusal x d q with
    | some c => o.2 = .err c ∧ o.1.flash = s.flash
    | none => o.2 = .resp (answer d q) ∧ Storing o.1.flash (after d q) ∧ o.1.flash.dm.isSome = true ∧
        o.1.flash = { s.flash with dc := o.1.flash.dc, dm := o.1.flash.dm } ∧ (q.sub ≠ 6 → o.1.flash.dm = s.flash.dm)) (A := allOk) he
    (ok_credMgmt hq hs) ?_ ?_ ?_ ?_
  · rintro a f r ⟨hR, rfl, h⟩
    dsimp only
    rw [hR]
    exact ⟨rfl, h⟩
  · rintro c f r ⟨c', e, hR, rfl⟩
    cases e
    dsimp only
    rw [hR]
    exact ⟨rfl, rfl⟩
  · rintro u f r ⟨c', e, _⟩
    cases e
  · rintro f r h
    exact h.elim

/-- C110. The theorem is about the states that histories lead to: after any history of an authenticator without a reset,
with power cuts and storage errors, if no update is pending and no credential was registered for a relying party and a
user that had one (for those see C57). -/
theorem C110_reached_partial (x : Ext) (hm : ∀ k m, (x.hmac k m).length = 32) (s : St) (hs : Unused s.flash) (ops : List (Op × Env))
    (hf : Along x Fair s ops) (hk : Along x (fun s o => ¬ Replaces s.flash o.1) s ops) (t : St) (ht : t = (run x s ops).1) (i : In)
    (hq : ∃ a, rdAttr t.flash = some a ∧ a.add = false ∧ a.del = false) :
    Sees t i ⟨t.ram.consec, t.ram.tok.observe i.tick, (rdRecs t.flash).getD []⟩ := by
  subst ht
  obtain ⟨⟨recs, ms, a, g⟩, _⟩ := good_run (K := True) hm ops s hs.lb hf (fun _ => hk) hs.good
  obtain ⟨b, h1, h2, h3⟩ := hq
  rw [g.attr] at h1
  cases h1
  have hc := g.count trivial
  unfold Counted at hc
  simp only [h2, h3, Bool.or_self, Bool.false_eq_true, if_false, Nat.add_zero] at hc
  refine ⟨rfl, rfl, ?_, by rw [g.dm]; rfl⟩
  rw [g.recs]
  exact ⟨a, g.dc, h2, h3, hc⟩

/-- C110. After every answer the device is in such a state again, with the credentials of the specification. -/
theorem C110_again (x : Ext) (s : St) (i : In) (q : CmReq) (hq : q.sub = 1 ∨ q.sub = 6 ∨ q.sub = 7) (d : Facts) (hs : Sees s i d)
    (env : Env) (he : ∀ n, env n = .ok) (i' : In) (t : St) (ht : t = (step x s (.cbor i (.cm (.ok q))) env).1) :
    Sees t i' ⟨t.ram.consec, t.ram.tok.observe i'.tick, if refusal x d q = none then after d q else d.recs⟩ := by
  have h := C110_manage x s i q hq d hs env he _ rfl
  subst ht
  cases hR : refusal x d q with
  | some c =>
    rw [hR] at h
    rw [if_neg (by simp)]
    exact ⟨rfl, rfl, h.2 ▸ hs.store, h.2 ▸ hs.metas⟩
  | none =>
    rw [hR] at h
    rw [if_pos rfl]
    exact ⟨rfl, rfl, h.2.1, h.2.2.1⟩

/-- C110. A deletion takes the one credential away and leaves the others, in their order; there is one less. -/
theorem C110_deleted (d : Facts) (q : CmReq) (hq : q.sub = 6) (c : Dc) (hc : d.recs.find? (is q.cid) = some c) :
    (after d q).filter (!·.deleted) = (d.recs.filter (!·.deleted)).eraseP (·.cid == q.cid) ∧ live (after d q) + 1 = live d.recs := by
  have h : ∀ l : List Dc, l.find? (is q.cid) = some c →
      (change q.cid (fun c => { c with deleted := true }) l).filter (!·.deleted) = (l.filter (!·.deleted)).eraseP (·.cid == q.cid) ∧
      live (change q.cid (fun c => { c with deleted := true }) l) + 1 = live l := by
    intro l
    induction l with
    | nil => intro h; cases h
    | cons b l ih =>
      intro h
      rw [List.find?_cons] at h
      unfold change live
      by_cases hb : is q.cid b = true
      · rw [if_pos hb]
        unfold is at hb
        simp only [Bool.and_eq_true, Bool.not_eq_true'] at hb
        simp [hb.1, hb.2]
      · rw [if_neg hb]
        have hf : is q.cid b = false := by simpa using hb
        rw [hf] at h
        obtain ⟨i1, i2⟩ := ih h
        unfold live at i2
        unfold is at hf
        cases hd : b.deleted with
        | true => simp [hd, i1, i2]
        | false =>
          rw [hd] at hf
          have hf : (b.cid == q.cid) = false := hf
          simp [hd, i1, hf]
          omega
  unfold after
  rw [if_pos hq]
  exact h _ hc

/-- C110. New user data change nothing but the user of that credential: not the places, the ids and the keys, nor which
credentials there are. -/
theorem C110_updated (d : Facts) (q : CmReq) (hq : q.sub = 7) (k : Nat) :
    ((after d q)[k]?.map fun c => (c.cid, c.deleted, c.lbk, c.blob)) = d.recs[k]?.map fun c => (c.cid, c.deleted, c.lbk, c.blob) := by
  have h : ∀ (l : List Dc) (k : Nat), ((change q.cid (fun c => { c with user := q.user }) l)[k]?.map fun c => (c.cid, c.deleted, c.lbk, c.blob)) =
      l[k]?.map fun c => (c.cid, c.deleted, c.lbk, c.blob) := by
    intro l
    induction l with
    | nil => intro k; rfl
    | cons b l ih =>
      intro k
      unfold change
      by_cases hb : is q.cid b = true
      · rw [if_pos hb]
        cases k with
        | zero => rfl
        | succ k => rfl
      · rw [if_neg hb]
        cases k with
        | zero => rfl
        | succ k => simpa using ih k
  unfold after
  rw [if_neg (by rw [hq]; decide), if_pos hq]
  exact h _ _

/-! ### The hypotheses can be met -/

open Verif.Ctap.Toy in
theorem stocked_sees : Sees (run ext produced stocked).1 (env 20003) ⟨(run ext produced stocked).1.ram.consec,
    (run ext produced stocked).1.ram.tok.observe (env 20003).tick, (rdRecs (run ext produced stocked).1.flash).getD []⟩ := by
  refine C110_reached_partial ext toy_hmac produced produced_unused stocked stocked_fair ?_ _ rfl _ ?_
  · have no : ∀ (s : St) (o : Op × Env), (match o.1 with
        | .cbor _ (.mc (.ok q)) => ((rdRecs s.flash).getD []).all fun d => Cid.rp d.cid != q.rpHash || d.user.id != q.user.id
        | _ => true) = true → ¬ Replaces s.flash o.1 := by
      intro s o h hr
      unfold Replaces at hr
      split at hr
      · rename_i q heq
        obtain ⟨_, recs, p, d, h1, ⟨h2, _⟩, h4, h5, _⟩ := hr
        rw [heq] at h
        rw [h1] at h
        have := List.all_eq_true.mp h d (List.mem_of_getElem? h2)
        rw [h4, h5] at this
        simp at this
      · exact hr
    exact ⟨no _ _ (by decide +kernel), no _ _ (by decide +kernel), no _ _ (by decide +kernel), no _ _ rfl, no _ _ rfl, trivial⟩
  · have h : (rdAttr (run ext produced stocked).1.flash).all (fun a => !a.add && !a.del) = true ∧ (rdAttr (run ext produced stocked).1.flash).isSome = true := by
      decide +kernel
    obtain ⟨b, hb⟩ := Option.isSome_iff_exists.mp h.2
    rw [hb] at h
    refine ⟨b, hb, ?_⟩
    simpa using h.1

open Verif.Ctap.Toy in
/-- The metadata before and after the deletion of a credential, the deletion of one that there is not, and new data for
another user. -/
example : ((run ext (run ext produced stocked).1 (histN [(20003, 0, cm 1 [] []), (20003, 0, cm 6 [] stockedB), (20003, 0, cm 1 [] []),
    (20003, 0, cm 6 [] stockedB), (20003, 0, cm 7 [] stockedB)])).2.map fun o => match o with
      | .resp (.credsMeta n left) => (n, left)
      | .err c => (c.toNat, -1)
      | _ => (0, 0)) = [(3, 61), (0, 0), (2, 62), (0x2E, -1), (0x2E, -1)] := by
  decide +kernel

end Verif.Props
