import Verif.Lemmas.CtapLb
/-
Which operations touch the keys from which credentials are derived: only resets.
-/
namespace Verif.Ctap
open Cmd

/-- The device secrets are the same, and so is whether there is a large-blob array. -/
structure Secret (f : Flash) (_ : Ram) (f' : Flash) (_ : Ram) : Prop where
  kh : rdCert (·.kh) f' = rdCert (·.kh) f
  he : rdCert (·.he) f' = rdCert (·.he) f
  lb : f.lb.isSome = true → f'.lb.isSome = true
instance : Pre Secret where
  refl _ _ := ⟨rfl, rfl, id⟩
  trans _ _ _ _ _ _ a b := ⟨b.kh.trans a.kh, b.he.trans a.he, b.lb ∘ a.lb⟩

theorem sc_same {α : Type} {m : M α} (h : Rel Same m) : Rel Secret m := h.mono fun _ _ _ _ h => by
  obtain ⟨rfl, rfl⟩ := h
  exact ⟨rfl, rfl, id⟩
theorem Stored.secret {f f' : Flash} {r r' : Ram} (h : Stored f r f' r') : Secret f r f' r' := by
  refine ⟨?_, ?_, ?_⟩
  · unfold rdCert; rw [h.cert]
  · unfold rdCert; rw [h.cert]
  · rw [h.lb]; exact id
theorem sc_stored {α : Type} {m : M α} (h : Rel Stored m) : Rel Secret m := h.mono fun _ _ _ _ h => h.secret
theorem Secret.upd {g : Cert → Cert} (h1 : ∀ c, (g c).kh = c.kh) (h2 : ∀ c, (g c).he = c.he) {f f' : Flash} {r : Ram}
    (h : updCert g f = some f') : Secret f r f' r := by
  unfold updCert at h
  cases hd : f.cert with
  | none => rw [hd] at h; cases h
  | some c =>
    rw [hd] at h
    cases h
    refine ⟨?_, ?_, id⟩
    · unfold rdCert; rw [hd]; exact h1 c
    · unfold rdCert; rw [hd]; exact h2 c

macro "secrets" : tactic => `(tactic| first
  | (intro _ _ _ h; exact (Stored.updRec' h).secret)
  | (intro _ _ _ h; exact (Stored.updMeta' h).secret)
  | (intro _ _ _ h; exact (Stored.updAttr' h).secret)
  | (intro _ _ _ h; exact Secret.upd (by intro _; rfl) (by intro _; rfl) h)
  | (intro _ _ _ h; cases h; exact ⟨rfl, rfl, id⟩)
  | (intro _ _ _ h; cases h; exact ⟨rfl, rfl, fun _ => rfl⟩)
  | (intro _ _; exact ⟨rfl, rfl, id⟩))

section
variable (x : Ext) (i : In)

theorem sc_verifyToken (msg sig : Bytes) (proto : Nat) : Rel Secret (verifyToken x i msg sig proto) := by
  unfold verifyToken
  rels (secrets)
theorem sc_mcAuth (q : McReq) : Rel Secret (mcAuth x i q) := by
  unfold mcAuth
  rels (first | exact sc_same same_hasPin | exact sc_verifyToken x i _ _ _ | secrets)
theorem sc_gaCheck (q : GaReq) : Rel Secret (gaCheck x i q) := by
  unfold gaCheck
  rels (first | exact sc_same same_hasPin | exact sc_same (same_emptyAuth _ _) | exact sc_verifyToken x i _ _ _ | secrets)
theorem sc_takePresence (a : Option Bytes) : Rel Secret (takePresence i a) := by
  unfold takePresence
  rels (first | exact sc_same (same_wait _ _) | secrets)
theorem sc_gaAllow (q : GaReq) (uv : Bool) (l : List Bytes) (dc : Dc) : Rel Secret (gaAllow x q uv l dc) := by
  induction l generalizing dc with
  | nil => exact Rel.fail _
  | cons c l ih =>
    unfold gaAllow
    rels (first | exact ih _ | exact sc_same (same_verifyKh x _))
theorem sc_gaSelect : Rel Secret (gaSelect x) := by
  unfold gaSelect
  rels (first | exact sc_gaAllow x _ _ _ _ | exact sc_same (same_verifyKh x _) | secrets)
theorem sc_gaHmac (cid : Bytes) (h : HmacSecret) : Rel Secret (gaHmac x i cid h) := by
  unfold gaHmac
  rels (secrets)
theorem sc_makeAuthData (rp : Bytes) (fl : Byte) (alg : UInt32) (dc cp : Byte) : Rel Secret (makeAuthData x i rp fl alg dc cp) := by
  unfold makeAuthData increaseCounter
  rels (secrets)
theorem sc_mcFinish (q : McReq) (uv : Bool) : Rel Secret (mcFinish x i q uv) := by
  unfold mcFinish
  rels (first | exact sc_makeAuthData x i _ _ _ _ _ | exact sc_stored (st_mcStore _ _) | exact sc_same (same_largeBlobKey x _) | secrets)
theorem sc_makeCredential (q : Except Byte McReq) : Rel Secret (makeCredential x i q) := by
  unfold makeCredential
  rels (first | exact sc_stored st_consistency | exact sc_same (same_emptyAuth _ _) | exact sc_same same_hasPin | exact sc_mcAuth x i _ | exact sc_same (same_mcExclude x i _ _ _ _) | exact sc_takePresence i _ | exact sc_mcFinish x i _ _ | secrets)
theorem sc_gaFinish : Rel Secret (gaFinish x i) := by
  unfold gaFinish
  rels (first | exact sc_gaSelect x | exact sc_takePresence i _ | exact sc_gaHmac x i _ _ | exact sc_makeAuthData x i _ _ _ _ _ | exact sc_same (same_largeBlobKey x _) | secrets)
theorem sc_getAssertion (q : Except Byte GaReq) : Rel Secret (getAssertion x i q) := by
  unfold getAssertion
  rels (first | exact sc_stored st_consistency | exact sc_gaCheck x i _ | exact sc_gaFinish x i | secrets)
theorem sc_getNext : Rel Secret (getNextAssertion x i) := by
  unfold getNextAssertion
  rels (first | exact sc_gaFinish x i | secrets)
theorem sc_u2f (q : UReq) : Rel Secret (u2f x i q) := by
  unfold u2f uTouch
  rels (first | exact sc_makeAuthData x i _ _ _ _ _ | secrets)
theorem sc_clientPin (q : Except Byte CpReq) : Rel Secret (clientPin x i q) := by
  unfold clientPin cpSetPin cpChangePin cpGetToken pinGate pinCompare storeNewPin setPin setPinRetries pinRetries
    verifyPinHash shared decryptOr
  rels (first | exact sc_same same_hasPin | secrets)
theorem sc_credMgmt (q : Except Byte CmReq) : Rel Secret (credMgmt x i q) := by
  unfold credMgmt cmAuth cmRpsBegin cmNextRp cmCredsBegin cmNextCred cmDelete cmUpdate cmFind cmCred metaCount rdAt
  rels (first | exact sc_stored st_consistency | exact sc_verifyToken x i _ _ _ | exact sc_same (same_verifyKh x _) | exact sc_same (same_largeBlobKey x _) | secrets)
theorem sc_lbAuth (q : LbReq) : Rel Secret (lbAuth x i q) := by
  unfold lbAuth
  rels (first | exact sc_same same_hasPin | exact sc_verifyToken x i _ _ _ | secrets)

theorem sc_largeBlobs (q : Except Byte LbReq) : Rel Secret (largeBlobs x i q) := by
  unfold largeBlobs lbSet
  rels (first | exact sc_lbAuth x i _ | secrets | (intro f r f' h; cases hl : f.lbt with | none => (rw [hl] at h; cases h) | some b => (rw [hl] at h; cases h; exact ⟨rfl, rfl, fun _ => rfl⟩)))

theorem sc_handle {q : Req} (hq : q ≠ .reset) : Rel Secret (handle x i q) := by
  cases q with
  | mc q => exact sc_makeCredential x i q
  | ga q => exact sc_getAssertion x i q
  | gna => exact sc_getNext x i
  | info => exact Rel.bind (sc_same same_hasPin) fun _ => Rel.pure _
  | cp q => exact sc_clientPin x i q
  | reset => exact absurd rfl hq
  | cm q => exact sc_credMgmt x i q
  | sel => exact Rel.bind (sc_same (same_wait _ _)) fun _ => Rel.pure _
  | lb q => exact sc_largeBlobs x i q
  | other c => exact Rel.fail _

end

end Verif.Ctap
