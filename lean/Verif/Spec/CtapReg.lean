import Verif.Spec.CtapExclude
/-
Registrations: what the answer to makeCredential has to be.
-/
namespace Verif.Spec.Reg
open Verif.Ctap

/-- What a registration depends on: whether a PIN is set, the PIN tries until power is cycled, the token (after its
timer), the secrets of the device, the signature counter and the stored credentials. -/
structure Facts where
  pin : Bool
  left : Byte
  tok : Tok
  kh : Bytes
  he : Bytes
  ctr : UInt32
  recs : List Dc

/-- The device is in this state when the command comes. It has been installed, its store is not in the middle of an
update, and the algorithm is one that it announces. -/
structure Sees (s : St) (i : In) (q : McReq) (d : Facts) : Prop where
  pin : ∃ p, rdCert (·.pin) s.flash = some p ∧ (d.pin = true ↔ p ≠ [])
  left : s.ram.consec = d.left
  tok : s.ram.tok.observe i.tick = d.tok
  kh : rdCert (·.kh) s.flash = some d.kh
  he : rdCert (·.he) s.flash = some d.he
  ctr : s.flash.counter = some d.ctr
  recs : rdRecs s.flash = some d.recs
  room : d.recs.length ≤ 64
  settled : ∃ a, rdAttr s.flash = some a ∧ a.add = false ∧ a.del = false
  metas : s.flash.dm.isSome = true
  attest : (rdCert (·.key) s.flash).isSome = true
  alg : q.alg = ES256 ∨ q.alg = EDDSA ∨ (s.ram.sm2.enabled = true ∧ q.alg = s.ram.sm2.algo)

/-- The user is asked for a touch: the status if there is none, which `late` is when the time is up. -/
def touch (i : In) (late : Byte) : Option Byte :=
  if i.nfc then none
  else match i.presence with
    | .ok => none
    | .cancel => some 0x2D
    | .timeout => some late

/-- Where a new credential goes: in the place of the one for the same relying party and user, else in the first place
that is free, else behind the others, of which there can be 64. -/
def place (l : List Dc) (new : Dc) : Option (List Dc) :=
  match l.findIdx? fun d => !d.deleted && Cid.rp d.cid == Cid.rp new.cid && d.user.id == new.user.id with
  | some p => some (l.set p new)
  | none => match l.findIdx? (·.deleted) with
    | some p => some (l.set p new)
    | none => if l.length < 64 then some (l ++ [new]) else none

/-- The user was verified: a PIN is set and the request is authenticated. -/
def uv (d : Facts) (q : McReq) : Bool := d.pin && q.pinAuth.isSome

/-- The user has been seen already, when the token was made. -/
def seen (d : Facts) (q : McReq) : Bool := q.pinAuth.isSome && d.tok.inUse && d.tok.up

/-- There is no room for the credential. -/
def full (d : Facts) (q : McReq) : Bool :=
  d.recs.length == 64 && d.recs.all fun c => !c.deleted && !(Cid.rp c.cid == q.rpHash && c.user.id == q.user.id)

open Classical in
/-- The status with which the request is refused, if it is. -/
noncomputable def refusal (x : Ext) (d : Facts) (i : In) (q : McReq) : Option Byte :=
  -- the platform only wants to know whether the user chooses this device
  if q.pinAuth = some [] then some ((touch i 0x27).getD (if d.pin then 0x31 else 0x35))
  -- parameters and options
  else if q.pinAuth ≠ none ∧ q.proto = none then some 0x14
  else if q.uv = .yes ∧ q.pinAuth = none then some 0x2C
  else if q.up = .no then some 0x2C
  -- with a PIN, discoverable credentials need it, and others may be made without
  else if d.pin = true ∧ q.pinAuth = none ∧ q.rk = .yes then some 0x36
  else if uv d q = true ∧ d.left = 0 then some 0x34
  else if uv d q = true ∧ ¬ Authorized x d.tok permMc q.rpHash q.cdh q.pinAuth (q.proto.getD 0) then some 0x33
  -- there is a credential already
  else if Barred x d.kh q (uv d q) then some (if seen d q then 0x19 else (touch i 0x19).getD 0x19)
  -- the user
  else if seen d q = false ∧ touch i 0x27 ≠ none then touch i 0x27
  else if q.lbk = true ∧ q.rk ≠ .yes then some 0x2C
  else if q.rk = .yes ∧ full d q = true then some 0x28
  else none

/-- The new credential id: it has 70 bytes, was made by this device for the relying party, with new random bytes, and
carries the kind, the protection and the algorithm of the request. -/
structure Issued (x : Ext) (d : Facts) (i : In) (q : McReq) (cid : Bytes) : Prop where
  len : cid.length = 70
  own : Authentic x d.kh cid
  rp : Cid.rp cid = q.rpHash
  fresh : (Cid.nonce cid).take 16 = i.rndNonce
  dc : Cid.dc cid = if q.rk = .yes then 1 else 0
  cp : Cid.cp cid = if q.protect = 0 then 1 else q.protect
  alg : Cid.alg cid = q.alg

/-- The answer: user present, with the verification that there was, the next value of the counter, the new id, and the
outputs of the extensions that were asked for. -/
def answer (x : Ext) (d : Facts) (q : McReq) (cid : Bytes) : McResp where
  ad :=
    { rp := q.rpHash
      flags := 0x41 + (if uv d q then 0x04 else 0) + (if q.hmacSecret ∨ q.protect ≠ 0 ∨ q.credBlob ≠ none then 0x80 else 0)
      ctr := d.ctr + 1
      att := some cid }
  blobOk := q.credBlob.map fun b => decide (b.length ≤ 32 ∧ q.rk = .yes)
  protect := if q.protect = 0 then none else some q.protect
  hmacSecret := q.hmacSecret
  cdh := q.cdh
  lbk := if q.lbk then some (x.hmac (lbTweak d.he) ((Cid.nonce cid).take 16)) else none

/-- What is stored of a discoverable credential: a blob only if it has at most 32 bytes. -/
def stored (q : McReq) (cid : Bytes) : Dc where
  cid := cid
  user := q.user
  deleted := false
  lbk := q.lbk
  blob := (q.credBlob.filter (·.length ≤ 32)).getD []

/-- The credentials after a registration. -/
def after (d : Facts) (q : McReq) (cid : Bytes) : Option (List Dc) :=
  if q.rk = .yes then place d.recs (stored q cid) else some d.recs

end Verif.Spec.Reg
