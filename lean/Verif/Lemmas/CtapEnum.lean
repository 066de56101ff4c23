import Verif.Lemmas.CtapLb
/-
The enumerations of credentialManagement: what starts them.
-/
namespace Verif.Ctap
open Cmd

/-- No enumeration of relying parties or of credentials is started. -/
structure Enum (f : Flash) (r : Ram) (f' : Flash) (r' : Ram) : Prop where
  nRp : r'.cm.nRp ≠ 0 → r.cm.nRp ≠ 0
  slots : r'.cm.slots ≠ 0#64 → r.cm.slots ≠ 0#64
instance : Pre Enum where
  refl _ _ := ⟨id, id⟩
  trans _ _ _ _ _ _ a b := ⟨a.nRp ∘ b.nRp, a.slots ∘ b.slots⟩

theorem en_same {α : Type} {m : M α} (h : Rel Same m) : Rel Enum m := h.mono fun _ _ _ _ h => by
  obtain ⟨rfl, rfl⟩ := h
  exact ⟨id, id⟩
theorem en_stored {α : Type} {m : M α} (h : Rel Stored m) : Rel Enum m := h.mono fun _ _ _ _ h => by
  have := h.ram
  subst this
  exact ⟨id, id⟩
theorem masked {s m : BitVec 64} (h : s &&& m ≠ 0#64) : s ≠ 0#64 := by
  rintro rfl
  exact h (by simp)

macro "enums" : tactic => `(tactic| first
  | (intro _ _ _ h; exact ⟨id, id⟩)
  | (intro _ _; exact ⟨id, id⟩)
  | (intro _ _; exact ⟨id, masked⟩))

section
variable (x : Ext) (i : In)

theorem en_verifyToken (msg sig : Bytes) (proto : Nat) : Rel Enum (verifyToken x i msg sig proto) := by
  unfold verifyToken
  rels (enums)
theorem en_mcAuth (q : McReq) : Rel Enum (mcAuth x i q) := by
  unfold mcAuth
  rels (first | exact en_same same_hasPin | exact en_verifyToken x i _ _ _ | enums)
theorem en_gaCheck (q : GaReq) : Rel Enum (gaCheck x i q) := by
  unfold gaCheck
  rels (first | exact en_same same_hasPin | exact en_same (same_emptyAuth _ _) | exact en_verifyToken x i _ _ _ | enums)
theorem en_takePresence (a : Option Bytes) : Rel Enum (takePresence i a) := by
  unfold takePresence
  rels (first | exact en_same (same_wait _ _) | enums)
theorem en_gaAllow (q : GaReq) (uv : Bool) (l : List Bytes) (dc : Dc) : Rel Enum (gaAllow x q uv l dc) := by
  induction l generalizing dc with
  | nil => exact Rel.fail _
  | cons c l ih =>
    unfold gaAllow
    rels (first | exact ih _ | exact en_same (same_verifyKh x _))
theorem en_gaSelect : Rel Enum (gaSelect x) := by
  unfold gaSelect
  rels (first | exact en_gaAllow x _ _ _ _ | exact en_same (same_verifyKh x _) | enums)
theorem en_gaHmac (cid : Bytes) (h : HmacSecret) : Rel Enum (gaHmac x i cid h) := by
  unfold gaHmac
  rels (enums)
theorem en_makeAuthData (rp : Bytes) (fl : Byte) (alg : UInt32) (dc cp : Byte) : Rel Enum (makeAuthData x i rp fl alg dc cp) := by
  unfold makeAuthData increaseCounter
  rels (enums)
theorem en_mcFinish (q : McReq) (uv : Bool) : Rel Enum (mcFinish x i q uv) := by
  unfold mcFinish
  rels (first | exact en_makeAuthData x i _ _ _ _ _ | exact en_stored (st_mcStore _ _) | exact en_same (same_largeBlobKey x _) | enums)
theorem en_makeCredential (q : Except Byte McReq) : Rel Enum (makeCredential x i q) := by
  unfold makeCredential
  rels (first | exact en_stored st_consistency | exact en_same (same_emptyAuth _ _) | exact en_same same_hasPin | exact en_mcAuth x i _ | exact en_same (same_mcExclude x i _ _ _ _) | exact en_takePresence i _ | exact en_mcFinish x i _ _ | enums)
theorem en_gaFinish : Rel Enum (gaFinish x i) := by
  unfold gaFinish
  rels (first | exact en_gaSelect x | exact en_takePresence i _ | exact en_gaHmac x i _ _ | exact en_makeAuthData x i _ _ _ _ _ | exact en_same (same_largeBlobKey x _) | enums)
theorem en_getAssertion (q : Except Byte GaReq) : Rel Enum (getAssertion x i q) := by
  unfold getAssertion
  rels (first | exact en_stored st_consistency | exact en_gaCheck x i _ | exact en_gaFinish x i | enums)
theorem en_getNext : Rel Enum (getNextAssertion x i) := by
  unfold getNextAssertion
  rels (first | exact en_gaFinish x i | enums)
theorem en_u2f (q : UReq) : Rel Enum (u2f x i q) := by
  unfold u2f uTouch
  rels (first | exact en_makeAuthData x i _ _ _ _ _ | enums)
theorem en_clientPin (q : Except Byte CpReq) : Rel Enum (clientPin x i q) := by
  unfold clientPin cpSetPin cpChangePin cpGetToken pinGate pinCompare storeNewPin setPin setPinRetries pinRetries
    verifyPinHash shared decryptOr
  rels (first | exact en_same same_hasPin | enums)
theorem en_cmAuth (q : CmReq) : Rel Enum (cmAuth x i q) := by
  unfold cmAuth
  rels (first | exact en_verifyToken x i _ _ _ | enums)
theorem en_cmFind (q : CmReq) (n : Byte) : Rel Enum (cmFind q n) := by
  unfold cmFind
  rels (enums)
theorem en_cmDelete (q : CmReq) (n : Byte) : Rel Enum (cmDelete q n) := by
  unfold cmDelete
  rels (first | exact en_cmFind _ _ | enums)
theorem en_cmUpdate (q : CmReq) (n : Byte) : Rel Enum (cmUpdate q n) := by
  unfold cmUpdate
  rels (first | exact en_cmFind _ _ | enums)
theorem en_cmNextRp (q : CmReq) : Rel Enum (cmNextRp q) := by
  unfold cmNextRp
  rels (enums)
theorem en_cmCred (b : Bool) : Rel Enum (cmCred x b) := by
  have rest : ∀ (r : Ram) (p total : Nat), Rel Enum (do
      let d ← rdRec rdRecs p
      match ← verifyKh x d.cid with
      | none => fail Code.unhandled
      | some key => do
        failIf (!algOk r.sm2 (Cid.alg d.cid)) 0xFF
        let lbk ← if d.lbk then (do let k ← largeBlobKey x d.cid; pure (some k)) else pure none
        return .cred ⟨d.user, d.cid, key, if b then some total else none, Cid.cp d.cid, lbk⟩ : M Resp) := by
    intro r p total
    rels (first | exact en_same (same_verifyKh x _) | exact en_same (same_largeBlobKey x _) | enums)
  intro A f r
  unfold cmCred
  apply wp_bind
  apply wp_get
  wzeta
  cases lowest r.cm.slots 64 with
  | none =>
    apply wp_bind
    apply wp_mod
    exact wp_fail ⟨id, id⟩
  | some p =>
    apply wp_bind
    apply wp_mod
    have h0 : Enum f r f { r with cm := { r.cm with idx := (p : Int), slots := r.cm.slots &&& ~~~(BitVec.twoPow 64 p) } } :=
      ⟨id, masked⟩
    exact wp_mono (rest r p _ A f _) (fun _ _ _ h => Pre.trans _ _ _ _ _ _ h0 h) (fun _ _ _ h => Pre.trans _ _ _ _ _ _ h0 h) (fun _ _ h => Pre.trans _ _ _ _ _ _ h0 h)
theorem en_cmNextCred (q : CmReq) : Rel Enum (cmNextCred x q) := by
  unfold cmNextCred
  rels (first | exact en_cmCred x _ | enums)
theorem en_lbAuth (q : LbReq) : Rel Enum (lbAuth x i q) := by
  unfold lbAuth
  rels (first | exact en_same same_hasPin | exact en_verifyToken x i _ _ _ | enums)

theorem en_lbSet (q : LbReq) : Rel Enum (lbSet x i q) := by
  unfold lbSet
  rels (first | exact en_lbAuth x i _ | enums)
theorem en_largeBlobs (q : Except Byte LbReq) : Rel Enum (largeBlobs x i q) := by
  unfold largeBlobs
  rels (first | exact en_lbSet x i _ | enums)
theorem en_install (b : Bool) : Rel Enum (install i b) := by
  unfold install
  rels (enums)

end

end Verif.Ctap
