import Verif.Spec.CtapHmac
/-
The life of a FIDO credential: what ends it.
-/
namespace Verif.Ctap

/-- The operation is meant to end the life of the resident credential `c` of user `uid`: it deletes it, or
registers another one for the same relying party and user. (Resets are left out everywhere.) -/
def Op.ends (c uid : Bytes) : Op → Prop
  | .cbor _ (.cm (.ok q)) => q.sub = 6 ∧ q.cid = c
  | .cbor _ (.mc (.ok q)) => q.rk = .yes ∧ Cid.rp c = q.rpHash ∧ uid = q.user.id
  | _ => False

/-- The operation registers a credential for which the random generator delivers the 16 bytes `n`. -/
def Op.draws (n : Bytes) : Op → Prop
  | .cbor i (.mc (.ok _)) => i.rndNonce = n
  | _ => False

/-- The credential `c` is stored, for user `uid`. -/
def Holds (f : Flash) (c uid : Bytes) : Prop := ∃ d, Live f d ∧ d.cid = c ∧ d.user.id = uid

/-- No stored credential has the nonce of `c`. -/
def Absent (f : Flash) (c : Bytes) : Prop := ∀ d, Live f d → Cid.nonce d.cid ≠ Cid.nonce c

/-- What an assertion request for the credential `c` must be like: it is for the relying party of the credential,
names it in its allow list behind ids that are not of this device and relying party only, has the options of the specification, the user is
there unless it asks for no test of that, it has user verification if it claims it or the credential
demands it, and if it asks for the outputs of the hmac-secret extension, it does so as the specification says.
`uv` is whether it has user verification. -/
structure Asks (x : Ext) (s : St) (i : In) (q : GaReq) (c : Bytes) (uv : Bool) : Prop where
  rp : q.rpHash = Cid.rp c
  allow : ∃ pre post, q.allow = pre ++ c :: post ∧ ∀ e ∈ pre, e.length = 70 ∧
    ∀ kh, rdCert (·.kh) s.flash = some kh → ¬ (Cid.rp e = q.rpHash ∧ Authentic x kh e)
  rk : q.rk = .absent
  hs : ∀ h, q.hs = some h → q.up ≠ .no ∧ SaltsOk x s.ram.ka h
  up : q.up = .no ∨ i.present
  plain : uv = false → q.pinAuth = none ∧ q.uv ≠ .yes
  verified : uv = true → rdCert (·.pin) s.flash ≠ some [] ∧ s.ram.consec ≠ 0 ∧ q.proto.isSome = true ∧ q.pinAuth ≠ some [] ∧
    Authorized x (s.ram.tok.observe i.tick) permGa q.rpHash q.cdh q.pinAuth (q.proto.getD 0)
  protect : Cid.cp c = 3 → uv = true
  alg : Cid.alg c = ES256 ∨ Cid.alg c = EDDSA ∨ (s.ram.sm2.enabled = true ∧ Cid.alg c = s.ram.sm2.algo)

/-- The response is an assertion by the credential `c` under the device secret `kh`. -/
def Out.asserts (x : Ext) (kh c : Bytes) (q : GaReq) (uv : Bool) (ctr : UInt32) (o : Out) : Prop :=
  ∃ g, o = .resp (.ga g) ∧ g.cid = c ∧ g.key = khPri x kh (Cid.nonce c) ∧ g.alg = Cid.alg c ∧ g.ad.rp = q.rpHash ∧
    g.cdh = q.cdh ∧ g.ad.ctr = ctr ∧ g.ad.uv = uv ∧ (g.ad.up = true ↔ q.up ≠ .no)

end Verif.Ctap
