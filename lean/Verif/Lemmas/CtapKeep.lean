import Verif.Lemmas.CtapStore
import Verif.Lemmas.CtapLb
/-
Which operations touch the credential store: only makeCredential, deleting and updating credentials, the recovery
of interrupted updates, and resets.
-/
namespace Verif.Ctap
open Cmd

/-- The credential store is the same. -/
def Keep : FRel := fun f _ f' _ => f'.dc = f.dc ∧ f'.dm = f.dm
instance : Pre Keep where
  refl _ _ := ⟨rfl, rfl⟩
  trans _ _ _ _ _ _ a b := ⟨b.1.trans a.1, b.2.trans a.2⟩

theorem kp_same {α : Type} {m : M α} (h : Rel Same m) : Rel Keep m := h.mono fun _ _ _ _ h => by
  obtain ⟨rfl, rfl⟩ := h
  exact ⟨rfl, rfl⟩
theorem Keep.upd {g : Cert → Cert} {f f' : Flash} {r : Ram} (h : updCert g f = some f') : Keep f r f' r := by
  unfold updCert at h
  cases hd : f.cert with
  | none => rw [hd] at h; cases h
  | some c =>
    rw [hd] at h
    cases h
    exact ⟨rfl, rfl⟩

macro "keeps" : tactic => `(tactic| first
  | (intro _ _ _ h; exact Keep.upd h)
  | (intro _ _ _ h; cases h; exact ⟨rfl, rfl⟩)
  | (intro _ _; exact ⟨rfl, rfl⟩))

section
variable (x : Ext) (i : In)

theorem kp_verifyToken (msg sig : Bytes) (proto : Nat) : Rel Keep (verifyToken x i msg sig proto) := by
  unfold verifyToken
  rels (keeps)
theorem kp_mcAuth (q : McReq) : Rel Keep (mcAuth x i q) := by
  unfold mcAuth
  rels (first | exact kp_same same_hasPin | exact kp_verifyToken x i _ _ _ | keeps)
theorem kp_gaCheck (q : GaReq) : Rel Keep (gaCheck x i q) := by
  unfold gaCheck
  rels (first | exact kp_same same_hasPin | exact kp_same (same_emptyAuth _ _) | exact kp_verifyToken x i _ _ _ | keeps)
theorem kp_takePresence (a : Option Bytes) : Rel Keep (takePresence i a) := by
  unfold takePresence
  rels (first | exact kp_same (same_wait _ _) | keeps)
theorem kp_gaAllow (q : GaReq) (uv : Bool) (l : List Bytes) (dc : Dc) : Rel Keep (gaAllow x q uv l dc) := by
  induction l generalizing dc with
  | nil => exact Rel.fail _
  | cons c l ih =>
    unfold gaAllow
    rels (first | exact ih _ | exact kp_same (same_verifyKh x _))
theorem kp_gaSelect : Rel Keep (gaSelect x) := by
  unfold gaSelect
  rels (first | exact kp_gaAllow x _ _ _ _ | exact kp_same (same_verifyKh x _) | keeps)
theorem kp_gaHmac (cid : Bytes) (h : HmacSecret) : Rel Keep (gaHmac x i cid h) := by
  unfold gaHmac
  rels (keeps)
theorem kp_makeAuthData (rp : Bytes) (fl : Byte) (alg : UInt32) (dc cp : Byte) : Rel Keep (makeAuthData x i rp fl alg dc cp) := by
  unfold makeAuthData increaseCounter
  rels (keeps)
theorem kp_gaFinish : Rel Keep (gaFinish x i) := by
  unfold gaFinish
  rels (first | exact kp_gaSelect x | exact kp_takePresence i _ | exact kp_gaHmac x i _ _ | exact kp_makeAuthData x i _ _ _ _ _ | exact kp_same (same_largeBlobKey x _) | keeps)
theorem kp_getNext : Rel Keep (getNextAssertion x i) := by
  unfold getNextAssertion
  rels (first | exact kp_gaFinish x i | keeps)
theorem kp_u2f (q : UReq) : Rel Keep (u2f x i q) := by
  unfold u2f uTouch
  rels (first | exact kp_makeAuthData x i _ _ _ _ _ | keeps)
theorem kp_clientPin (q : Except Byte CpReq) : Rel Keep (clientPin x i q) := by
  unfold clientPin cpSetPin cpChangePin cpGetToken pinGate pinCompare storeNewPin setPin setPinRetries pinRetries
    verifyPinHash shared decryptOr
  rels (first | exact kp_same same_hasPin | keeps)
theorem kp_cmAuth (q : CmReq) : Rel Keep (cmAuth x i q) := by
  unfold cmAuth
  rels (first | exact kp_verifyToken x i _ _ _ | keeps)
theorem kp_cmList (q : CmReq) (n : Byte) : Rel Keep (cmRpsBegin n) ∧ Rel Keep (cmNextRp q) ∧ Rel Keep (cmCredsBegin x q n) ∧
    Rel Keep (cmNextCred x q) ∧ Rel Keep (cmFind q n) := by
  unfold cmRpsBegin cmNextRp cmCredsBegin cmNextCred cmFind cmCred metaCount rdAt
  refine ⟨?_, ?_, ?_, ?_, ?_⟩
  all_goals rels (first | exact kp_same (same_verifyKh x _) | exact kp_same (same_largeBlobKey x _) | keeps)
theorem kp_lbAuth (q : LbReq) : Rel Keep (lbAuth x i q) := by
  unfold lbAuth
  rels (first | exact kp_same same_hasPin | exact kp_verifyToken x i _ _ _ | keeps)

theorem kp_largeBlobs (q : Except Byte LbReq) : Rel Keep (largeBlobs x i q) := by
  unfold largeBlobs lbSet
  rels (first | exact kp_lbAuth x i _ | keeps | (intro f r f' h; cases hl : f.lbt with | none => (rw [hl] at h; cases h) | some b => (rw [hl] at h; cases h; exact ⟨rfl, rfl⟩)))

end

end Verif.Ctap
