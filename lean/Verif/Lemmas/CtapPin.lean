import Verif.Lemmas.CtapSim
import Verif.Spec.Ctap
/-
Which PIN is stored matters only where a PIN is compared.
-/
namespace Verif.Ctap
open Cmd

section
variable (p : Bytes)

theorem rdCert_withPin {α : Type} {g : Cert → Option α} (h : ∀ c b, g { c with pin := b } = g c) (f : Flash) :
    rdCert g (f.withPin p) = rdCert g f := by
  unfold rdCert Flash.withPin
  cases hc : f.cert with
  | none => rfl
  | some c => exact h c _

theorem updCert_withPin {g : Cert → Cert} (h : ∀ c b, g { c with pin := b } = { g c with pin := b }) 
    (h' : ∀ c, (g c).pin = c.pin) (f : Flash) :
    updCert g (f.withPin p) = (updCert g f).map (Flash.withPin p) := by
  unfold updCert Flash.withPin
  cases hc : f.cert with
  | none => simp
  | some c =>
    show some { f with cert := some (g { c with pin := c.pin.map fun (q : Bytes) => if q.isEmpty then q else p }) } = _
    rw [h]
    simp only [Option.map_some, h']

theorem updRec_withPin (k : Nat) (d : Dc) (f : Flash) :
    updRec k d (f.withPin p) = (updRec k d f).map (Flash.withPin p) := by
  unfold updRec Flash.withPin
  cases hd : f.dc <;> simp
theorem updMeta_withPin (k : Nat) (d : Meta) (f : Flash) :
    updMeta k d (f.withPin p) = (updMeta k d f).map (Flash.withPin p) := by
  unfold updMeta Flash.withPin
  cases hd : f.dm <;> simp
theorem updAttr_withPin (d : Attr) (f : Flash) :
    updAttr d (f.withPin p) = (updAttr d f).map (Flash.withPin p) := by
  unfold updAttr Flash.withPin
  cases hd : f.dc <;> simp [hd]

/-- Creating the certificate file. -/
theorem create_withPin (f : Flash) :
    (some { f.withPin p with
      cert := some ((f.withPin p).cert.getD ⟨[], none, none, none, none, none, none, none⟩) } : Option Flash)
    = (some { f with cert := some (f.cert.getD ⟨[], none, none, none, none, none, none, none⟩) } : Option Flash).map
      (Flash.withPin p) := by
  unfold Flash.withPin
  cases hc : f.cert <;> rfl
/-- Removing the PIN. -/
theorem clear_withPin (f : Flash) :
    updCert (fun c => { c with pin := some [] }) (f.withPin p)
    = (updCert (fun c => { c with pin := some [] }) f).map (Flash.withPin p) := by
  unfold updCert Flash.withPin
  cases hc : f.cert <;> rfl
theorem rename_withPin (f : Flash) :
    ((f.withPin p).lbt.map fun b => { f.withPin p with lb := some b, lbt := none })
    = (f.lbt.map fun b => { f with lb := some b, lbt := none }).map (Flash.withPin p) := by
  unfold Flash.withPin
  cases hc : f.lbt <;> simp
theorem installCert_withPin (b : Bytes) (f : Flash) :
    (some { f.withPin p with
      cert := some { (f.withPin p).cert.getD ⟨[], none, none, none, none, none, none, none⟩ with data := b } } : Option Flash)
    = (some { f with cert := some { f.cert.getD ⟨[], none, none, none, none, none, none, none⟩ with data := b } } : Option Flash).map
      (Flash.withPin p) := by
  unfold Flash.withPin
  cases hc : f.cert <;> rfl

end

/-- Closes the side conditions. -/
macro "spin" : tactic => `(tactic| first
  | (intro _; rfl)
  | (intro _; exact rdCert_withPin _ (fun _ _ => rfl) _)
  | (intro _; exact updCert_withPin _ (by intro _ _; rfl) (by intro _; rfl) _)
  | (intro _; exact updRec_withPin _ _ _ _)
  | (intro _; exact updMeta_withPin _ _ _ _)
  | (intro _; exact updAttr_withPin _ _ _)
  | (intro _; exact create_withPin _ _)
  | (intro _; exact clear_withPin _ _)
  | (intro _; exact rename_withPin _ _)
  | (intro _; exact installCert_withPin _ _ _))

section
variable (x : Ext) (i : In) {p : Bytes}

theorem s_hasPin (hp : p ≠ []) : Sim (Flash.withPin p) hasPin := by
  intro w
  obtain ⟨f, r, env⟩ := w
  have hp' : p.isEmpty = false := by simp [hp]
  have h : ((rdCert (·.pin) (f.withPin p)).map fun q => !q.isEmpty) = (rdCert (·.pin) f).map fun q => !q.isEmpty := by
    unfold rdCert Flash.withPin
    cases hc : f.cert with
    | none => rfl
    | some c =>
      cases hq : c.pin with
      | none => simp [hq]
      | some q => cases q <;> simp [hq, hp']
  have hrd : ∀ g : Flash, (hasPin.run ⟨g, r, env⟩) = match env 0 with
      | .ok => (some (.ok (((rdCert (·.pin) g).map fun q => !q.isEmpty).getD true)), ⟨g, r, fun n => env (n + 1)⟩)
      | .fail => (some (.ok true), ⟨g, r, fun n => env (n + 1)⟩)
      | .cut => (none, ⟨g, r, fun n => env (n + 1)⟩) := by
    intro g
    unfold hasPin
    rw [run_bind]
    cases he : env 0 <;> simp [Cmd.rdF, Cmd.lift, ExceptT.run, ExceptT.mk, FsM.read, he]
    · cases rdCert (·.pin) g <;> rfl
    · rfl
  unfold onFlash
  rw [hrd, hrd]
  simp only [h]
  cases env 0 <;> rfl

theorem s_consistency : Sim (Flash.withPin p) consistency := by
  unfold consistency
  sims (spin)

theorem s_wait (c : Byte) : Sim (Flash.withPin p) (wait i c) := by
  unfold wait
  sims (spin)

theorem s_verifyKh (cid : Bytes) : Sim (Flash.withPin p) (verifyKh x cid) := by
  unfold verifyKh
  sims (spin)

theorem s_makeAuthData (rp : Bytes) (fl : Byte) (alg : UInt32) (dc cp : Byte) :
    Sim (Flash.withPin p) (makeAuthData x i rp fl alg dc cp) := by
  unfold makeAuthData increaseCounter
  sims (spin)

theorem s_verifyToken (msg sig : Bytes) (proto : Nat) : Sim (Flash.withPin p) (verifyToken x i msg sig proto) := by
  unfold verifyToken
  sims (spin)

theorem s_largeBlobKey (cid : Bytes) : Sim (Flash.withPin p) (largeBlobKey x cid) := by
  unfold largeBlobKey
  sims (spin)

theorem s_takePresence (q : Option Bytes) : Sim (Flash.withPin p) (takePresence i q) := by
  unfold takePresence
  sims (first | exact s_wait _ _ | spin)

theorem s_mcExclude (q : McReq) (uv : Bool) (l : List Bytes) (buf : Bytes) :
    Sim (Flash.withPin p) (mcExclude x i q uv l buf) := by
  induction l generalizing buf with
  | nil => exact Sim.pure _
  | cons d l ih =>
    unfold mcExclude
    sims (first | exact ih _ | exact s_verifyKh _ _ | exact s_wait _ _ | spin)

theorem s_mcStore (q : McReq) (cid : Bytes) : Sim (Flash.withPin p) (mcStore q cid) := by
  unfold mcStore
  sims (spin)

theorem s_mcFinish (q : McReq) (uv : Bool) : Sim (Flash.withPin p) (mcFinish x i q uv) := by
  unfold mcFinish
  sims (first | exact s_makeAuthData _ _ _ _ _ _ _ | exact s_mcStore _ _ | exact s_largeBlobKey _ _ | spin)

theorem s_emptyAuth (hp : p ≠ []) (a : Option Bytes) : Sim (Flash.withPin p) (emptyAuth i a) := by
  unfold emptyAuth
  sims (first | exact s_hasPin hp | exact s_wait _ _ | spin)

theorem s_makeCredential (hp : p ≠ []) (q : Except Byte McReq) : Sim (Flash.withPin p) (makeCredential x i q) := by
  unfold makeCredential mcAuth
  sims (first | exact s_consistency | exact s_emptyAuth _ hp _ | exact s_hasPin hp | exact s_mcExclude _ _ _ _ _ _ | exact s_takePresence _ _ | exact s_mcFinish _ _ _ _ | exact s_verifyToken _ _ _ _ _ | spin)

theorem s_gaAllow (q : GaReq) (uv : Bool) (l : List Bytes) (dc : Dc) :
    Sim (Flash.withPin p) (gaAllow x q uv l dc) := by
  induction l generalizing dc with
  | nil => exact Sim.fail _
  | cons d l ih =>
    unfold gaAllow
    sims (first | exact ih _ | exact s_verifyKh _ _ | spin)

theorem s_gaSelect : Sim (Flash.withPin p) (gaSelect x) := by
  unfold gaSelect
  sims (first | exact s_gaAllow _ _ _ _ _ | exact s_verifyKh _ _ | spin)

theorem s_gaHmac (cid : Bytes) (h : HmacSecret) : Sim (Flash.withPin p) (gaHmac x i cid h) := by
  unfold gaHmac
  sims (spin)

theorem s_gaFinish : Sim (Flash.withPin p) (gaFinish x i) := by
  unfold gaFinish
  sims (first | exact s_gaSelect _ | exact s_takePresence _ _ | exact s_gaHmac _ _ _ _ | exact s_makeAuthData _ _ _ _ _ _ _ | exact s_largeBlobKey _ _ | spin)

theorem s_getAssertion (hp : p ≠ []) (q : Except Byte GaReq) : Sim (Flash.withPin p) (getAssertion x i q) := by
  unfold getAssertion gaCheck
  sims (first | exact s_consistency | exact s_emptyAuth _ hp _ | exact s_hasPin hp | exact s_gaFinish _ _ | exact s_verifyToken _ _ _ _ _ | spin)

theorem s_getNextAssertion : Sim (Flash.withPin p) (getNextAssertion x i) := by
  unfold getNextAssertion
  sims (first | exact s_gaFinish _ _ | spin)

theorem s_credMgmt (q : Except Byte CmReq) : Sim (Flash.withPin p) (credMgmt x i q) := by
  unfold credMgmt cmAuth cmRpsBegin cmNextRp cmCredsBegin cmNextCred cmDelete cmUpdate cmFind cmCred rdAt metaCount
  sims (first | exact s_consistency | exact s_verifyToken _ _ _ _ _ | exact s_verifyKh _ _ | exact s_largeBlobKey _ _ | spin)

theorem s_largeBlobs (hp : p ≠ []) (q : Except Byte LbReq) : Sim (Flash.withPin p) (largeBlobs x i q) := by
  unfold largeBlobs lbSet lbAuth
  sims (first | exact s_hasPin hp | exact s_verifyToken _ _ _ _ _ | spin)

theorem s_u2f (q : UReq) : Sim (Flash.withPin p) (u2f x i q) := by
  unfold u2f uTouch
  sims (first | exact s_makeAuthData _ _ _ _ _ _ _ | spin)

theorem s_install (b : Bool) : Sim (Flash.withPin p) (install i b) := by
  unfold install
  sims (spin)

end
end Verif.Ctap
