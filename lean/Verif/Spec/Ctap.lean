import Verif.Model.CtapCmd
/-
What the statements about the FIDO applet talk about.
-/
namespace Verif.Ctap

/-- The same flash with another PIN (hash) set; nothing changes if no PIN is set. -/
def Flash.withPin (p : Bytes) (f : Flash) : Flash :=
  { f with cert := f.cert.map fun c => { c with pin := c.pin.map fun q => if q.isEmpty then q else p } }
/-- The same device with another PIN (hash) set. -/
def St.withPin (p : Bytes) (s : St) : St := { s with flash := s.flash.withPin p }

/-- The stored PIN hash; `none` if no PIN is set. -/
def Flash.pinHash (f : Flash) : Option Bytes :=
  match f.cert with
  | none => none
  | some c => match c.pin with
    | some (b :: l) => some (b :: l)
    | _ => none

/-- PIN retries left on flash. -/
def Flash.tries (f : Flash) : Nat :=
  match f.cert with
  | none => 0
  | some c => match c.pinCtr with
    | some n => n.toNat
    | none => 0

/-- What a clientPIN request presents as PIN hash: it is encrypted under the secret shared with the
device's current key-agreement key. -/
def presented (x : Ext) (ka : Nat) (q : CpReq) : Option Bytes :=
  (decapsulate x ka q.key q.proto).bind fun z =>
    (decrypt x z (q.pinHashEnc.take (hashSize q.proto)) q.proto).map fun c => c.take 16

/-- The PIN hash that an operation presents to the device, if any: in changePIN (4), getPinToken (5)
and getPinUvAuthTokenUsingPinWithPermissions (9). -/
def guess (x : Ext) (s : St) : Op → Option Bytes
  | .cbor _ (.cp (.ok q)) => if q.sub = 4 ∨ q.sub = 5 ∨ q.sub = 9 then presented x s.ram.ka q else none
  | _ => none

/-- Does the operation ask for a PIN to be compared? -/
def Op.asks : Op → Bool
  | .cbor _ (.cp (.ok q)) => q.sub == 4 || q.sub == 5 || q.sub == 9
  | _ => false

/-- The request carries a whole encrypted PIN hash (requests from the parser do: the field is an array
of fixed size). -/
def Op.full : Op → Prop
  | .cbor _ (.cp (.ok q)) => 16 ≤ q.pinHashEnc.length
  | _ => True

/-- The operation presents the PIN that is set. -/
def Right (x : Ext) (s : St) (op : Op) : Prop :=
  ∃ h, s.flash.pinHash = some h ∧ guess x s op = some (h.take 16)

instance (x : Ext) (s : St) (op : Op) : Decidable (Right x s op) :=
  match h : s.flash.pinHash with
  | none => isFalse fun ⟨_, h1, _⟩ => by rw [h] at h1; cases h1
  | some p =>
    if h2 : guess x s op = some (p.take 16) then isTrue ⟨p, h, h2⟩
    else isFalse fun ⟨_, h1, h3⟩ => by rw [h] at h1; cases h1; exact h2 h3

/-- SHA-256 has 32 bytes. -/
def Ext.Sized (x : Ext) : Prop := ∀ b, (x.sha b).length = 32

/-- authenticatorReset or the administrator's reset. -/
def Op.resets : Op → Bool
  | .adminReset _ => true
  | .cbor _ .reset => true
  | _ => false

/-- Power is applied. -/
def Op.powers : Op → Bool
  | .powerOn _ => true
  | _ => false

/-- In a history from `s`, no operation presents the PIN that is set at that moment. -/
def NeverRight (x : Ext) : St → List (Op × Env) → Prop
  | _, [] => True
  | s, (op, env) :: rest => ¬ Right x s op ∧ NeverRight x (step x s op env).1 rest

instance neverRightDec (x : Ext) : (s : St) → (ops : List (Op × Env)) → Decidable (NeverRight x s ops)
  | _, [] => isTrue trivial
  | s, (op, env) :: rest =>
    have := neverRightDec x (step x s op env).1 rest
    inferInstanceAs (Decidable (_ ∧ _))

/-- `sig` is the authentication code of `msg` under `key`: in protocol 1 the first 16 bytes of the HMAC, in
protocol 2 all 32.  A shorter `sig` counts as padded with zeros. -/
def Authenticates (x : Ext) (key msg sig : Bytes) (proto : Nat) : Prop :=
  (sig ++ List.replicate 32 0).take (if proto = 1 then 16 else 32) =
    (x.hmac key msg).take (if proto = 1 then 16 else 32)

/-- A request carries a valid authentication by the token `t`: the token is in use and stands for a
verified user, allows the operation, is not bound to another relying party, and `auth` is a MAC of the
request under it. -/
structure Authorized (x : Ext) (t : Tok) (perm : Byte) (rp msg : Bytes) (auth : Option Bytes) (proto : Nat) : Prop where
  inUse : t.inUse = true
  uv : t.uv = true
  perm : t.perms &&& perm ≠ 0
  rp : ∀ h, t.rp = some h → h = rp
  mac : ∃ a, auth = some a ∧ Authenticates x t.token msg a proto

/-- User presence was shown to this command: by touch, or by holding the device to an NFC reader. -/
def In.present (i : In) : Prop := i.nfc = true ∨ i.presence = .ok

/-- UV and UP flags of authenticator data. -/
def AuthData.uv (a : AuthData) : Bool := a.flags &&& 0x04 != 0
def AuthData.up (a : AuthData) : Bool := a.flags &&& 0x01 != 0

/-- Slots of the live credentials of a relying party that may be used without naming them, newest slot
first. -/
def matching (recs : List Dc) (rp : Bytes) (uv : Bool) : List Nat :=
  (List.range recs.length).reverse.filter fun p =>
    match recs[p]? with
    | none => false
    | some d => !d.deleted && protectOk d.cid false uv && rp == Cid.rp d.cid

/-- The credential id was made by this device: its tag is right under the device key `kh`. -/
def Authentic (x : Ext) (kh cid : Bytes) : Prop := Cid.tag cid = khTag x kh (Cid.nonce cid) (Cid.rp cid)

/-- `d` is a live record of the store. -/
def Live (f : Flash) (d : Dc) : Prop := ∃ (recs : List Dc) (p : Nat), rdRecs f = some recs ∧ recs[p]? = some d ∧ d.deleted = false

/-- Permissions that a clientPIN request asks for: getPinToken (5) stands for makeCredential and
getAssertion. -/
def CpReq.asked (q : CpReq) : Byte := if q.sub = 5 then 0x03 else q.perms
/-- The relying party to which the token is to be bound. -/
def CpReq.binding (q : CpReq) : Option Bytes := if q.sub = 5 then none else q.rp

/-- In the history `ops` from `s`, a request for the token `t` presented the PIN that was set, and `t` has
no permission that was not asked for, and is bound to the relying party asked for, if any. -/
def Granted (x : Ext) (s : St) (ops : List (Op × Env)) (t : Tok) : Prop :=
  ∃ pre i q env post, ops = pre ++ (.cbor i (.cp (.ok q)), env) :: post ∧ (q.sub = 5 ∨ q.sub = 9) ∧
    Right x (run x s pre).1 (.cbor i (.cp (.ok q))) ∧
    (∃ e, (step x (run x s pre).1 (.cbor i (.cp (.ok q))) env).2 = .resp (.token e)) ∧
    t.token = i.rndTok ∧ t.perms &&& q.asked = t.perms ∧ (∀ h, q.binding = some h → t.rp = some h)

/-- A request of credential management carries a valid authentication by the token `t`. -/
structure MayManage (x : Ext) (t : Tok) (perm : Byte) (msg auth : Bytes) (proto : Nat) : Prop where
  inUse : t.inUse = true
  perm : t.perms &&& perm ≠ 0
  mac : Authenticates x t.token msg auth proto

/-- What the relying party of the token may be, for each subcommand of credential management: no binding
for metadata and the list of relying parties, else the relying party concerned. -/
def cmScope (q : CmReq) (t : Tok) : Prop :=
  if q.sub = 1 ∨ q.sub = 2 then t.rp = none
  else if q.sub = 4 then ∀ h, t.rp = some h → h = q.rpHash
  else ∀ h, t.rp = some h → h = Cid.rp q.cid

/-- The request presents a token, or asks for one. -/
def Req.presents : Req → Bool
  | .mc (.ok q) => q.pinAuth.isSome
  | .ga (.ok q) => q.pinAuth.isSome
  | .cm (.ok q) => q.sub == 1 || q.sub == 2 || q.sub == 4 || q.sub == 6 || q.sub == 7
  | .lb (.ok q) => q.get.isNone && q.pinAuth.isSome
  | .cp (.ok q) => q.sub == 5 || q.sub == 9
  | _ => false

/-- In state `s`, no token opens anything to a command with circumstances `i`: no registration or assertion
claims user verification, credentials cannot be managed, and while a PIN is set the large-blob array cannot
be written. -/
structure NoToken (x : Ext) (s : St) (i : In) : Prop where
  mc : ∀ q env m, (step x s (.cbor i (.mc (.ok q))) env).2 = .resp (.mc m) → m.ad.uv = false
  ga : ∀ q env g, (step x s (.cbor i (.ga (.ok q))) env).2 = .resp (.ga g) → g.ad.uv = false
  cm : ∀ (q : CmReq) env a, (q.sub = 1 ∨ q.sub = 2 ∨ q.sub = 4 ∨ q.sub = 6 ∨ q.sub = 7) →
    (step x s (.cbor i (.cm (.ok q))) env).2 ≠ .resp a
  lb : s.flash.pinHash ≠ none → ∀ (q : LbReq) env a, q.get = none → (step x s (.cbor i (.lb (.ok q))) env).2 ≠ .resp a

/-- The signature counter in an output, if it carries one. -/
def Out.counter : Out → Option UInt32
  | .resp (.mc m) => some m.ad.ctr
  | .resp (.ga g) => some g.ad.ctr
  | .u2f (.signed c _ _ _) => some c
  | _ => none

/-- The signature counter on flash. -/
def Flash.counter (f : Flash) : Option UInt32 := f.cert.bind (·.ctr)

/-- No file-system call reports an error (power may still be cut). -/
def noFail (env : Env) : Prop := ∀ n, env n ≠ .fail

end Verif.Ctap
