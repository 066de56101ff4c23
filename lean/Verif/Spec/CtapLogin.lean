import Verif.Spec.CtapReg
/-
Assertions: what the answer to getAssertion has to be.
-/
namespace Verif.Spec.Login
open Verif.Ctap
open Verif.Spec.Reg (Facts touch)

/-- The device is in this state when the command comes. It has been installed, its store is not in the middle of an
update, and the credentials in question were made by it with an algorithm that it still has. -/
structure Sees (x : Ext) (s : St) (i : In) (q : GaReq) (d : Facts) : Prop where
  pin : ∃ p, rdCert (·.pin) s.flash = some p ∧ (d.pin = true ↔ p ≠ [])
  left : s.ram.consec = d.left
  tok : s.ram.tok.observe i.tick = d.tok
  kh : rdCert (·.kh) s.flash = some d.kh
  he : rdCert (·.he) s.flash = some d.he
  ctr : s.flash.counter = some d.ctr
  recs : rdRecs s.flash = some d.recs
  settled : ∃ a, rdAttr s.flash = some a ∧ a.add = false ∧ a.del = false
  own : ∀ c ∈ d.recs, c.deleted = false → Authentic x d.kh c.cid
  algs : ∀ e, e ∈ q.allow ∨ (∃ c ∈ d.recs, c.deleted = false ∧ c.cid = e) → Cid.rp e = q.rpHash → Authentic x d.kh e →
    Cid.alg e = ES256 ∨ Cid.alg e = EDDSA ∨ (s.ram.sm2.enabled = true ∧ Cid.alg e = s.ram.sm2.algo)

/-- The user was verified: a PIN is set and the request is authenticated. -/
def uv (d : Facts) (q : GaReq) : Bool := d.pin && q.pinAuth.isSome

/-- The user has been seen already, when the token was made. -/
def seen (d : Facts) (q : GaReq) : Bool := q.pinAuth.isSome && d.tok.inUse && d.tok.up

/-- The stored credential with this id, for the relying party of the request. -/
def stored (d : Facts) (q : GaReq) (e : Bytes) : Option Dc :=
  d.recs.find? fun c => !c.deleted && Cid.rp c.cid == q.rpHash && Cid.nonce c.cid == Cid.nonce e

/-- This id is one of the device for the relying party, and its protection allows that it is used: level 3 needs
verification. -/
def Suits (x : Ext) (d : Facts) (q : GaReq) (e : Bytes) : Prop :=
  Cid.rp e = q.rpHash ∧ Authentic x d.kh e ∧ (Cid.cp e = 3 → uv d q = true)

open Classical in
/-- The credential of a list of ids: the first that fits, and is stored if it is discoverable. -/
noncomputable def named (x : Ext) (d : Facts) (q : GaReq) : List Bytes → Option Dc
  | [] => none
  | e :: l =>
    if Suits x d q e then
      if Cid.dc e = 0 then some ⟨e, ⟨[], [], []⟩, false, false, []⟩
      else (stored d q e).or (named x d q l)
    else named x d q l

/-- The credentials that can be used without their ids: discoverable, for the relying party, and with verification
unless their protection has level 1. The newest place comes first. -/
def eligible (d : Facts) (q : GaReq) : List Dc :=
  (d.recs.filter fun c => !c.deleted && Cid.rp c.cid == q.rpHash &&
    (uv d q || !(Cid.cp c.cid == 2 || Cid.cp c.cid == 3))).reverse

/-- The credential that is used. -/
noncomputable def chosen (x : Ext) (d : Facts) (q : GaReq) : Option Dc :=
  if q.allow = [] then (eligible d q).head? else named x d q q.allow

open Classical in
/-- The status with which the request is refused, if it is. -/
noncomputable def refusal (x : Ext) (d : Facts) (i : In) (q : GaReq) : Option Byte :=
  -- the platform only wants to know whether the user chooses this device
  if q.pinAuth = some [] then some ((touch i 0x27).getD (if d.pin then 0x31 else 0x35))
  -- parameters and options
  else if q.pinAuth ≠ none ∧ q.proto = none then some 0x14
  else if q.uv = .yes ∧ q.pinAuth = none then some 0x2C
  else if q.rk ≠ .absent then some 0x2B
  -- the authentication
  else if uv d q = true ∧ d.left = 0 then some 0x34
  else if uv d q = true ∧ ¬ Authorized x d.tok permGa q.rpHash q.cdh q.pinAuth (q.proto.getD 0) then some 0x33
  -- the credential
  else if chosen x d q = none then some 0x2E
  -- the user
  else if q.up ≠ .no ∧ seen d q = false then touch i 0x27
  else none

/-- The answer with credential `c`: signed with its key for this relying party and request, with the verification and
presence that there were and the next value of the counter. The user's id comes with discoverable credentials, their
name only for a verified user who has to choose, and the number of credentials if there are several. -/
def answer (x : Ext) (d : Facts) (q : GaReq) (c : Dc) : GaResp where
  cid := c.cid
  ad :=
    { rp := q.rpHash
      flags := (if q.up = .no then 0 else 0x01) + (if uv d q then 0x04 else 0) + (if q.credBlob then 0x80 else 0)
      ctr := d.ctr + 1
      att := none }
  blob := if q.credBlob then some c.blob else none
  hmacSecret := none
  alg := Cid.alg c.cid
  key := khPri x d.kh (Cid.nonce c.cid)
  cdh := q.cdh
  userId := if Cid.dc c.cid = 0 then none else some c.user.id
  userInfo :=
    if Cid.dc c.cid ≠ 0 ∧ uv d q = true ∧ q.allow = [] ∧ 1 < (eligible d q).length then some (c.user.name, c.user.disp) else none
  count := if q.allow = [] ∧ 1 < (eligible d q).length then some (eligible d q).length else none
  lbk := if c.lbk then some (x.hmac (lbTweak d.he) ((Cid.nonce c.cid).take 16)) else none

end Verif.Spec.Login
