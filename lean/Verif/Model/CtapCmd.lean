import Verif.Model.Ctap
/-
The FIDO2/U2F applet, part 2: the commands (`/repo/applets/ctap/ctap.c:238-2295`,
`/repo/applets/ctap/u2f.c`) and histories of them.
-/
namespace Verif.Ctap

/-! ### Requests and responses -/

/-- `CTAP_make_credential` (`ctap-internal.h:291-311`).  An exclude-list entry is its id. -/
structure McReq where
  cdh : Bytes
  rpHash : Bytes
  rpId : Bytes
  user : User
  alg : UInt32
  exclude : List Bytes
  rk : Opt
  uv : Opt
  up : Opt
  /-- `none` when absent -/
  pinAuth : Option Bytes
  proto : Option Nat
  hmacSecret : Bool
  /-- `CRED_PROTECT_ABSENT` is 0 -/
  protect : Byte
  credBlob : Option Bytes
  lbk : Bool
  deriving DecidableEq, Repr

/-- `CTAP_client_pin` (`ctap-internal.h:333-343`): the buffers are the padded ones. -/
structure CpReq where
  sub : Byte
  proto : Nat
  key : Bytes
  pinAuth : Bytes
  newPinEnc : Bytes
  pinHashEnc : Bytes
  perms : Byte
  /-- `none` when no relying party was given -/
  rp : Option Bytes
  deriving DecidableEq, Repr

/-- `CTAP_credential_management` (`ctap-internal.h:345-355`); `params` is the raw encoding of the
subcommand parameters. -/
structure CmReq where
  sub : Byte
  params : Bytes
  rpHash : Bytes
  cid : Bytes
  user : User
  proto : Nat
  pinAuth : Bytes
  deriving DecidableEq, Repr

/-- `CTAP_large_blobs` (`ctap-internal.h:357-366`). -/
structure LbReq where
  get : Option Nat
  set : Bytes
  offset : Nat
  length : Nat
  proto : Option Nat
  pinAuth : Option Bytes
  deriving DecidableEq, Repr

/-- A request to `ctap_process_cbor`: the command and what its parser made of the parameters (a
status if it refused them). -/
inductive Req where
  | mc (q : Except Byte McReq)
  | ga (q : Except Byte GaReq)
  | gna
  | info
  | cp (q : Except Byte CpReq)
  | reset
  | cm (q : Except Byte CmReq)
  | sel
  | lb (q : Except Byte LbReq)
  | other (cmd : Byte)

/-- Authenticator data (`ctap-internal.h:277-283`) before encoding. -/
structure AuthData where
  rp : Bytes
  flags : Byte
  ctr : UInt32
  /-- attested credential id -/
  att : Option Bytes
  deriving DecidableEq, Repr

/-- What `ctap_make_credential` returns.  The attestation signature and certificate are left out. -/
structure McResp where
  ad : AuthData
  blobOk : Option Bool
  protect : Option Byte
  hmacSecret : Bool
  cdh : Bytes
  lbk : Option Bytes
  deriving DecidableEq, Repr

/-- What `ctap_get_assertion` returns.  `alg` and `key` are the algorithm and private key of the
signature over the authenticator data and `cdh`. -/
structure GaResp where
  cid : Bytes
  ad : AuthData
  blob : Option Bytes
  hmacSecret : Option Bytes
  alg : UInt32
  key : Bytes
  cdh : Bytes
  userId : Option Bytes
  /-- name and display name -/
  userInfo : Option (Bytes × Bytes)
  count : Option Nat
  lbk : Option Bytes
  deriving DecidableEq, Repr

/-- One credential in an enumeration.  The public key is that of `pri` under `alg`. -/
structure CmCred where
  user : User
  cid : Bytes
  pri : Bytes
  total : Option Nat
  protect : Byte
  lbk : Option Bytes
  deriving DecidableEq, Repr

/-- Responses. -/
inductive Resp where
  | empty
  | mc (r : McResp)
  | ga (r : GaResp)
  | info (pin : Bool)
  | retries (n : Option Byte)
  | keyAgreement (pub : Bytes)
  | token (enc : Bytes)
  | credsMeta (existing : Nat) (remaining : Int)
  | rp (rpId hash : Bytes) (total : Option Nat)
  | cred (c : CmCred)
  | config (b : Bytes)
  deriving DecidableEq, Repr

/-! ### Pieces -/

/-- `parse_credential_descriptor` into a 70-byte buffer that keeps what the id does not cover
(`ctap-parser.c:208-226`); an id that is too long is refused and the result ignored.  The CBOR library puts a
zero byte after a string if there is room. -/
def overlay (old new : Bytes) : Bytes :=
  if new.length ≤ 70 then (new ++ 0 :: old.drop (new.length + 1)).take 70 else old

/-- `get_next_slot` (`ctap.c:1626-1639`): lowest set bit, if any, below `n`. -/
def lowest (s : BitVec 64) : Nat → Option Nat
  | 0 => none
  | n + 1 => (lowest s n).or (if s.getLsbD n then some n else none)
/-- Number of set bits below `n`. -/
def popCount (s : BitVec 64) : Nat → Nat
  | 0 => 0
  | n + 1 => popCount s n + (if s.getLsbD n then 1 else 0)

/-- The key for largeBlobKey (`secret.c:448-462`). -/
def lbTweak (h : Bytes) : Bytes :=
  let h := h.set 0 (h.getD 0 0 ^^^ h.getD 1 0)
  let h := h.set 1 (h.getD 1 0 ^^^ h.getD 2 0)
  let h := h.set 30 (h.getD 30 0 ^^^ h.getD 0 0)
  h.set 31 (h.getD 31 0 ^^^ h.getD 3 0)

/-- `make_large_blob_key` (`secret.c:448-462`); its callers report `INVALID_CBOR` on failure. -/
def largeBlobKey (x : Ext) (cid : Bytes) : M Bytes := do
  let he ← Cmd.rdOr (rdCert (·.he)) (.code Code.invalidCbor)
  return x.hmac (lbTweak he) ((Cid.nonce cid).take 16)

/-- `ctap_make_auth_data` (`ctap.c:238-308`). The buffers are large enough. -/
def makeAuthData (x : Ext) (i : In) (rp : Bytes) (flags : Byte) (alg : UInt32) (dc cp : Byte) : M AuthData := do
  let ctr ← increaseCounter
  if flags &&& 0x40 != 0 then
    let r ← Cmd.get
    failIf (!algOk r.sm2 alg) Code.unhandled
    let kh ← Cmd.rdOr (rdCert (·.kh)) (.code Code.unhandled)
    return ⟨rp, flags, ctr, some (makeCid x kh i.rndNonce dc (if cp == 0 then 1 else cp) rp alg)⟩
  else return ⟨rp, flags, ctr, none⟩

/-! ### authenticatorMakeCredential -/

/-- Step 1 of `ctap_make_credential` and `ctap_get_assertion` (`ctap.c:324-335,797-808`). -/
def emptyAuth (i : In) (pinAuth : Option Bytes) : M Unit :=
  if pinAuth == some [] then do
    wait i Code.denied
    let p ← hasPin
    fail (if p then Code.pinInvalid else Code.pinNotSet)
  else pure ()

/-- Step 11 of `ctap_make_credential` (`ctap.c:410-446`): the "uv" bit. -/
def mcAuth (x : Ext) (i : In) (q : McReq) : M Bool := do
  let p ← hasPin
  match q.pinAuth with
  | none => return false
  | some auth =>
    if !p then return false
    else
      let r ← Cmd.get
      failIf (r.consec == 0) Code.pinAuthBlocked
      let ok ← verifyToken x i q.cdh auth (q.proto.getD 0)
      failIf (!ok) Code.pinAuthInvalid
      failIf (!r.tok.has permMc) Code.pinAuthInvalid
      failIf (!r.tok.rpOk q.rpHash) Code.pinAuthInvalid
      failIf (!r.tok.verifiedFlag) Code.pinAuthInvalid
      Cmd.mod fun r => { r with tok := r.tok.associate q.rpHash }
      return true

/-- Step 12 (`ctap.c:451-494`): `buf` is the identifier buffer. -/
def mcExclude (x : Ext) (i : In) (q : McReq) (uv : Bool) : List Bytes → Bytes → M Unit
  | [], _ => pure ()
  | d :: ds, buf => do
    let cid := overlay buf d
    if Cid.rp cid != q.rpHash then mcExclude x i q uv ds cid
    else
      match ← verifyKh x cid with
      | none => mcExclude x i q uv ds cid
      | some _ =>
        if Cid.cp cid != 3 || uv then do
          let r ← Cmd.get
          if !(q.pinAuth.isSome && r.tok.presentFlag) then wait i Code.excluded else pure ()
          fail Code.excluded
        else mcExclude x i q uv ds cid

/-- Step 14 (`ctap.c:500-513`) and step 9 of `ctap_get_assertion` (`ctap.c:1009-1023`). -/
def takePresence (i : In) (pinAuth : Option Bytes) : M Unit := do
  let r ← Cmd.get
  if pinAuth.isSome && r.tok.presentFlag then pure () else wait i Code.denied
  Cmd.mod fun r => { r with tok := r.tok.clearFlags }

/-- The search for the slot of a new credential (`ctap.c:598-612`): the loop state is the last
record read and the first deleted slot. -/
def slotBody (rp uid : Bytes) (p : Nat) (d : Dc) (fd : Option Nat) : Option Nat × Bool :=
  if d.deleted then (some (fd.getD p), false)
  else (fd, rp == Cid.rp d.cid && uid == d.user.id)

/-- The search for the metadata entry of a relying party (`ctap.c:648-656`). -/
def metaBody (rp : Bytes) (p : Nat) (m : Meta) (s : Option Nat × Option Meta) :
    (Option Nat × Option Meta) × Bool :=
  if m.slots == 0#64 then ((some (s.1.getD p), none), false)
  else if rp == m.hash then ((s.1, some m), true) else ((s.1, none), false)

/-- Step 17 (`ctap.c:592-676`): storing a discoverable credential. -/
def mcStore (q : McReq) (cid : Bytes) : M Unit := do
  let n ← Cmd.rdOr (fun f => (rdRecs f).map (·.length)) (.code Code.unhandled)
  let (fd, p) ← scanUp rdRecs (slotBody q.rpHash q.user.id) n 0 none
  let p := if p == n then fd.getD p else p
  failIf (p ≥ 64) Code.keyStoreFull
  let d : Dc := ⟨cid, q.user, false, q.lbk,
    match q.credBlob with
    | some b => if b.length ≤ 32 then b else []
    | none => []⟩
  let a ← Cmd.rdOr rdAttr (.code Code.unhandled)
  let a := { a with add := true, index := UInt8.ofNat p }
  Cmd.wrOr (updAttr a) (.code Code.unhandled)
  Cmd.wrOr (updRec p d) (.code Code.unhandled)
  let k ← Cmd.rdOr (fun f => f.dm.map (·.length)) (.code Code.unhandled)
  let ((fm, m), j) ← scanUp (fun f => f.dm) (metaBody q.rpHash) k 0 (none, none)
  let slots := match m with
    | some m => m.slots
    | none => 0#64
  let j := if j == k then fm.getD j else j
  Cmd.wrOr (updMeta j ⟨q.rpHash, q.rpId, slots ||| BitVec.twoPow 64 p⟩) (.code Code.unhandled)
  Cmd.wrOr (updAttr { a with add := false, numbers := a.numbers + 1 }) (.code Code.unhandled)

/-- Are there extension outputs (`ctap.c:519-522`)? -/
def mcExt (q : McReq) : Bool := q.hmacSecret || q.protect != 0 || q.credBlob.isSome

/-- `ctap_make_credential` from step 15 on (`ctap.c:518-752`). -/
def mcFinish (x : Ext) (i : In) (q : McReq) (uv : Bool) : M Resp := do
  failIf (q.lbk && q.rk != .yes) Code.invalidOption
  let flags : Byte := 0x41 ||| (if mcExt q then 0x80 else 0) ||| (if uv then 0x04 else 0)
  let ad ← makeAuthData x i q.rpHash flags q.alg (if q.rk == .yes then 1 else 0) q.protect
  let cid := ad.att.getD []
  if q.rk == .yes then mcStore q cid else pure ()
  -- attestation: device key and certificate
  let _ ← Cmd.rdOr (rdCert (·.key)) (.code Code.unhandled)
  let _ ← Cmd.rdOr (rdCert (fun c => some c.data)) (.code Code.unhandled)
  let lbk ← if q.lbk then (do let k ← largeBlobKey x cid; pure (some k)) else pure none
  return .mc ⟨ad, q.credBlob.map fun b => b.length ≤ 32 && q.rk == .yes,
    if q.protect != 0 then some q.protect else none, q.hmacSecret, q.cdh, lbk⟩

/-- `ctap_make_credential` (`ctap.c:310-753`). -/
def makeCredential (x : Ext) (i : In) (req : Except Byte McReq) : M Resp :=
  match req with
  | .error c => fail c
  | .ok q => do
    consistency
    emptyAuth i q.pinAuth
    failIf (q.pinAuth.isSome && q.proto.isNone) Code.missingParameter
    failIf (q.uv == .yes && q.pinAuth.isNone) Code.invalidOption
    failIf (q.up == .no) Code.invalidOption
    let p ← hasPin
    failIf (p && q.pinAuth.isNone && q.rk == .yes) Code.puatRequired
    let uv ← if q.rk != .yes && q.pinAuth.isNone then pure false else mcAuth x i q
    mcExclude x i q uv q.exclude i.junk
    takePresence i q.pinAuth
    mcFinish x i q uv

/-! ### authenticatorGetAssertion -/

/-- Steps 1-6 of `ctap_get_assertion` (`ctap.c:792-882`). -/
def gaCheck (x : Ext) (i : In) (q : GaReq) : M Unit := do
  emptyAuth i q.pinAuth
  failIf (q.pinAuth.isSome && q.proto.isNone) Code.missingParameter
  Cmd.mod fun r => { r with ga := { r.ga with uv := false, up := false } }
  failIf (q.uv == .yes && q.pinAuth.isNone) Code.invalidOption
  failIf (q.rk != .absent) Code.unsupportedOption
  let p ← hasPin
  match q.pinAuth with
  | none => pure ()
  | some auth =>
    if !p then pure ()
    else
      let r ← Cmd.get
      failIf (r.consec == 0) Code.pinAuthBlocked
      let ok ← verifyToken x i q.cdh auth (q.proto.getD 0)
      failIf (!ok) Code.pinAuthInvalid
      Cmd.mod fun r => { r with ga := { r.ga with uv := true } }
      failIf (!r.tok.verifiedFlag) Code.pinAuthInvalid
      failIf (!r.tok.has permGa) Code.pinAuthInvalid
      failIf (!r.tok.rpOk q.rpHash) Code.pinAuthInvalid
      Cmd.mod fun r => { r with tok := r.tok.associate q.rpHash }

/-- `CTAP_discoverable_credential dc = {0}` (`ctap.c:762`). -/
def Dc.zero : Dc := ⟨List.replicate 70 0, ⟨[], [], []⟩, false, false, []⟩

/-- The search for the stored credential with the nonce of an allow-list entry
(`ctap.c:939-952`). -/
def findBody (rp nonce : Bytes) (_ : Nat) (d : Dc) (_ : Dc × Bool) : (Dc × Bool) × Bool :=
  let hit := !d.deleted && rp == Cid.rp d.cid && nonce == Cid.nonce d.cid
  ((d, hit), hit)

/-- Step 11 (`ctap.c:921-968`): `dc` is the credential buffer.  Gives the credential and the private
key. -/
def gaAllow (x : Ext) (q : GaReq) (uv : Bool) : List Bytes → Dc → M (Dc × Bytes)
  | [], _ => fail Code.noCredentials
  | d :: ds, dc => do
    let dc := { dc with cid := overlay dc.cid d }
    if Cid.rp dc.cid != q.rpHash then gaAllow x q uv ds dc
    else
      match ← verifyKh x dc.cid with
      | none => gaAllow x q uv ds dc
      | some key =>
        if !protectOk dc.cid true uv then gaAllow x q uv ds dc
        else if Cid.dc dc.cid != 0 then do
          let n ← Cmd.rdOr (fun f => (rdRecs f).map (·.length)) (.code Code.unhandled)
          let ((d', hit), _) ← scanUp rdRecs (findBody q.rpHash (Cid.nonce dc.cid)) n 0 (dc, false)
          if hit then return (d', key) else gaAllow x q uv ds d'
        else return (dc, key)

/-- The list of eligible credentials, in descending slot order (`ctap.c:977-989`). -/
def listBody (rp : Bytes) (uv : Bool) (p : Nat) (d : Dc) (l : List Nat) : List Nat :=
  if d.deleted then l
  else if !protectOk d.cid false uv then l
  else if rp == Cid.rp d.cid then l ++ [p] else l

/-- Steps 7, 11 and 12 (`ctap.c:920-998`).  `credential_list` has room for the 64 slots. -/
def gaSelect (x : Ext) : M (Dc × Bytes) := do
  let r ← Cmd.get
  let q := r.ga.req
  if q.allow.length > 0 then do
    let d ← gaAllow x q r.ga.uv q.allow Dc.zero
    Cmd.mod fun r => { r with ga := { r.ga with num := 1 } }
    return d
  else do
    if r.ga.ctr == 0 then do
      let n ← Cmd.rdOr (fun f => (rdRecs f).map (·.length)) (.code Code.unhandled)
      Cmd.mod fun r => { r with ga := { r.ga with num := 0 } }
      let l ← scanDown rdRecs (listBody q.rpHash r.ga.uv) n []
      Cmd.mod fun r => { r with ga := { r.ga with num := l.length, list := l } }
      failIf (l.length == 0) Code.noCredentials
    else pure ()
    let r ← Cmd.get
    let d ← rdRec rdRecs (r.ga.list.getD r.ga.ctr 0)
    match ← verifyKh x d.cid with
    | none => fail Code.unhandled
    | some key => return (d, key)

/-- `make_hmac_secret_output` (`secret.c:431-446`): `n` is the number of bytes that are used. -/
def hmacOut (x : Ext) (he cid salt : Bytes) (n : Nat) (uv : Bool) : Bytes :=
  let k := if uv then he.map (~~~ ·) else he
  let cr := x.hmac k ((Cid.nonce cid).take 16)
  if n == 64 then x.hmac cr (salt.take 32) ++ x.hmac cr ((salt.drop 32).take 32)
  else x.hmac cr (salt.take 32)

/-- The hmac-secret extension (`ctap.c:1060-1108`). A failing read of the key is not reported and
leaves the output uninitialised, and so does a salt length without a defined output. -/
def gaHmac (x : Ext) (i : In) (cid : Bytes) (h : HmacSecret) : M Bytes := do
  let r ← Cmd.get
  let h ← if r.ga.ctr == 0 then do
      failIf (!r.ga.up) Code.unsupportedOption
      match decapsulate x r.ka h.key h.proto with
      | none => fail 1
      | some z =>
        failIf (!verifyMac x (z.take 32) (h.salt.take h.saltLen) h.auth h.proto) Code.pinAuthInvalid
        match decrypt x z (h.salt.take h.saltLen) h.proto with
        | none => fail Code.unhandled
        | some s => do
          let h := { h with key := z, salt := s }
          Cmd.mod fun r => { r with ga := { r.ga with req := { r.ga.req with hs := some h } } }
          pure h
    else pure h
  let n := if h.proto == 1 then h.saltLen else h.saltLen - 16
  let he ← Cmd.rdOr (rdCert (·.he)) (.ub .uninit)
  if !(n == 32 || n == 64) || !(h.proto == 1 || h.proto == 2) then throw (.ub .uninit)
  else
    if r.ga.ctr + 1 == r.ga.num then
      Cmd.mod fun r => { r with ga := { r.ga with req := { r.ga.req with
        hs := r.ga.req.hs.map fun h => { h with key := List.replicate 64 0 } } } }
    else pure ()
    return encrypt x i h.key (hmacOut x he cid h.salt n r.ga.uv) h.proto

/-- `ctap_get_assertion` from step 7 on (`ctap.c:884-1217`).  A credential id whose algorithm is not
supported makes `sign_with_private_key` return -1, which as a `size_t` is not negative and becomes
the length of the encoded signature. -/
def gaFinish (x : Ext) (i : In) : M Resp := do
  let (d, key) ← gaSelect x
  let r ← Cmd.get
  let q := r.ga.req
  let first := r.ga.ctr == 0
  if first && q.up != .no then do
    takePresence i q.pinAuth
    Cmd.mod fun r => { r with ga := { r.ga with up := true } }
  else pure ()
  let r ← Cmd.get
  failIf (!protectOk d.cid (q.allow.length > 0) r.ga.uv) Code.noCredentials
  let hs ← match q.hs with
    | none => pure none
    | some h => do
      let o ← gaHmac x i d.cid h
      pure (some o)
  let flags : Byte := (if q.credBlob || q.hs.isSome then 0x80 else 0) ||| (if r.ga.uv then 0x04 else 0)
    ||| (if r.ga.up then 0x01 else 0)
  let ad ← makeAuthData x i q.rpHash flags (Cid.alg d.cid) (Cid.dc d.cid) (Cid.cp d.cid)
  if !algOk r.sm2 (Cid.alg d.cid) then throw (.ub .oob)
  else do
    let lbk ← if d.lbk then (do let k ← largeBlobKey x d.cid; pure (some k)) else pure none
    Cmd.mod fun r => { r with ga := { r.ga with ctr := r.ga.ctr + 1, timer := i.tick' } }
    let details := r.ga.uv && r.ga.num > 1
    return .ga ⟨d.cid, ad, if q.credBlob then some d.blob else none, hs, Cid.alg d.cid, key, q.cdh,
      if Cid.dc d.cid != 0 then some d.user.id else none,
      if Cid.dc d.cid != 0 && details then some (d.user.name, d.user.disp) else none,
      if q.allow.length == 0 && first && r.ga.num > 1 then some r.ga.num else none, lbk⟩

/-- `ctap_get_assertion` (`ctap.c:755-1218`). -/
def getAssertion (x : Ext) (i : In) (req : Except Byte GaReq) : M Resp := do
  Cmd.mod fun r => { r with ga := { r.ga with ctr := 0 } }
  consistency
  match req with
  | .error c => fail c
  | .ok q => do
    Cmd.mod fun r => { r with ga := { r.ga with req := q } }
    gaCheck x i q
    gaFinish x i

/-- `ctap_get_next_assertion` (`ctap.c:773-791,1221-1223`). -/
def getNextAssertion (x : Ext) (i : In) : M Resp := do
  let r ← Cmd.get
  failIf (r.lastCmd != 0x02 && r.lastCmd != 0x08) Code.notAllowed
  failIf (r.ga.ctr ≥ r.ga.num) Code.notAllowed
  failIf (i.tick - r.ga.timer > 30000) Code.notAllowed
  gaFinish x i

/-! ### authenticatorClientPIN (`ctap.c:1428-1624`) -/

/-- `PIN_ENC_SIZE_P1/P2` and `PIN_HASH_SIZE_P1/P2`. -/
def encSize (proto : Nat) : Nat := if proto == 1 then 64 else 80
def hashSize (proto : Nat) : Nat := if proto == 1 then 16 else 32

/-- `cp_decapsulate` and its check (`ctap.c:1476-1477,1514-1515,1580-1581`). -/
def shared (x : Ext) (q : CpReq) : M Bytes := do
  let r ← Cmd.get
  match decapsulate x r.ka q.key q.proto with
  | none => fail 1
  | some z => pure z

/-- `cp_decrypt` and its check. -/
def decryptOr (x : Ext) (z b : Bytes) (proto : Nat) : M Bytes :=
  match decrypt x z b proto with
  | none => fail Code.unhandled
  | some p => pure p

/-- `CP_CMD_SET_PIN` (`ctap.c:1471-1500`). -/
def cpSetPin (x : Ext) (q : CpReq) : M Resp := do
  let p ← hasPin
  failIf p Code.pinAuthInvalid
  let z ← shared x q
  let enc := q.newPinEnc.take (encSize q.proto)
  failIf (!verifyMac x (z.take 32) enc q.pinAuth q.proto) Code.pinAuthInvalid
  let plain ← decryptOr x z enc q.proto
  storeNewPin x plain
  return .empty

/-- The checks before a PIN is compared (`ctap.c:1504-1512,1570-1578`): the decremented retries. -/
def pinGate : M Byte := do
  let p ← hasPin
  failIf (!p) Code.pinNotSet
  let n ← pinRetries
  failIf (n == 0) Code.pinBlocked
  let r ← Cmd.get
  failIf (r.consec == 0) Code.pinAuthBlocked
  return n - 1

/-- The comparison of the PIN (`ctap.c:1531-1550,1582-1600`): `regen` for changePIN. -/
def pinCompare (x : Ext) (q : CpReq) (z : Bytes) (n : Byte) (regen : Bool) : M Unit := do
  setPinRetries n
  let cand ← decryptOr x z (q.pinHashEnc.take (hashSize q.proto)) q.proto
  if ← verifyPinHash cand then
    Cmd.mod fun r => { r with consec := 3 }
  else
    if regen then Cmd.mod fun r => { r with ka := r.ka + 1 } else pure ()
    failIf (n == 0) Code.pinBlocked
    Cmd.mod fun r => { r with consec := r.consec - 1 }
    let r ← Cmd.get
    fail (if r.consec == 0 then Code.pinAuthBlocked else Code.pinInvalid)

/-- `CP_CMD_CHANGE_PIN` (`ctap.c:1502-1563`). -/
def cpChangePin (x : Ext) (q : CpReq) : M Resp := do
  let n ← pinGate
  let z ← shared x q
  let enc := q.newPinEnc.take (encSize q.proto)
  failIf (!verifyMac x (z.take 32) (enc ++ q.pinHashEnc.take (hashSize q.proto)) q.pinAuth q.proto)
    Code.pinAuthInvalid
  pinCompare x q z n true
  let plain ← decryptOr x z enc q.proto
  storeNewPin x plain
  return .empty

/-- `CP_CMD_GET_PIN_TOKEN` and `CP_CMD_GET_PIN_UV_AUTH_TOKEN_USING_PIN_WITH_PERMISSIONS`
(`ctap.c:1565-1620`). -/
def cpGetToken (x : Ext) (i : In) (q : CpReq) : M Resp := do
  let n ← pinGate
  let z ← shared x q
  pinCompare x q z n false
  setPinRetries 8
  Cmd.mod fun r =>
    let t := (r.tok.reset i.rndTok).begin false i.tick'
    { r with tok :=
      if q.sub == 5 then { t with perms := t.perms ||| (permMc ||| permGa) }
      else
        let t := { t with perms := t.perms ||| q.perms }
        match q.rp with
        | none => t
        | some h => t.associate h }
  let r ← Cmd.get
  return .token (encrypt x i z r.tok.token q.proto)

/-- `ctap_client_pin` (`ctap.c:1428-1624`). An unknown subcommand returns success. -/
def clientPin (x : Ext) (i : In) (req : Except Byte CpReq) : M Resp :=
  match req with
  | .error c => fail c
  | .ok q =>
    if q.sub == 1 then do
      let n ← Cmd.rdF (rdCert (·.pinCtr))
      return .retries n
    else if q.sub == 2 then do
      let r ← Cmd.get
      return .keyAgreement (x.kaPub r.ka)
    else if q.sub == 3 then cpSetPin x q
    else if q.sub == 4 then cpChangePin x q
    else if q.sub == 5 || q.sub == 9 then cpGetToken x i q
    else return .empty

/-! ### authenticatorCredentialManagement (`ctap.c:1641-1990`) -/

/-- Subcommands that carry a token (`ctap.c:1660-1664`). -/
def cmAuthed (s : Byte) : Bool := s == 1 || s == 2 || s == 4 || s == 6 || s == 7

/-- The token check (`ctap.c:1665-1679`): gives `numbers`. -/
def cmAuth (x : Ext) (i : In) (q : CmReq) : M Byte := do
  Cmd.mod fun r => { r with cm := { r.cm with last := q.sub } }
  let a ← Cmd.rdOr rdAttr (.code Code.unhandled)
  failIf (q.params.length + 1 > 300) Code.invalidLength
  let r ← Cmd.get
  failIf (r.consec == 0) Code.pinAuthBlocked
  let ok ← verifyToken x i (q.sub :: q.params) q.pinAuth q.proto
  failIf (!ok) Code.pinAuthInvalid
  failIf (!r.tok.has permCm) Code.pinAuthInvalid
  return a.numbers

/-- `read_file(DC_META_FILE, &meta, idx * sizeof, …)` for a possibly negative `idx`. -/
def rdAt {β : Type} (recs : Flash → Option (List β)) (idx : Int) : M β :=
  if idx < 0 then fail Code.unhandled else rdRec recs idx.toNat

/-- `n_rp` (`ctap.c:1704-1705,1782-1783`): a negative size divides to zero. -/
def metaCount : M Nat := do
  let n ← Cmd.rdF (fun f => f.dm.map (·.length))
  return n.getD 0

/-- The loop of `CM_CMD_ENUMERATE_RPS_BEGIN` (`ctap.c:1707-1714`): lowest index in use and number of
entries in use. -/
def rpsBody (p : Nat) (m : Meta) (s : Option Nat × Nat) : Option Nat × Nat :=
  if m.slots == 0#64 then s else (some p, s.2 + 1)

/-- `CM_CMD_ENUMERATE_RPS_BEGIN` (`ctap.c:1701-1740`). When a read in the loop fails the static
`idx` is left as it was (the code has set it to some entry in use). -/
def cmRpsBegin (numbers : Byte) : M Resp := do
  let r ← Cmd.get
  failIf r.tok.rp.isSome Code.pinAuthInvalid
  failIf (numbers == 0) Code.noCredentials
  let n ← metaCount
  Cmd.mod fun r => { r with cm := { r.cm with nRp := n } }
  let (f, c) ← scanDown (fun f => f.dm) rpsBody n (none, 0)
  match f with
  | some p => Cmd.mod fun r => { r with cm := { r.cm with idx := (p : Int) } }
  | none => pure ()
  let r ← Cmd.get
  let m ← rdAt (fun f => f.dm) r.cm.idx
  return .rp m.rpId m.hash (some c)

/-- The loop of `CM_CMD_ENUMERATE_RPS_GET_NEXT_RP` (`ctap.c:1749-1757`): the last entry read. -/
def nextRpBody (_ : Nat) (m : Meta) (_ : Option Meta × Bool) : (Option Meta × Bool) × Bool :=
  ((some m, m.slots != 0#64), m.slots != 0#64)

/-- `CM_CMD_ENUMERATE_RPS_GET_NEXT_RP` (`ctap.c:1742-1776`). -/
def cmNextRp (q : CmReq) : M Resp := do
  let r ← Cmd.get
  if r.lastCmd != 0x0A || (r.cm.last != 2 && r.cm.last != 3) then do
    Cmd.mod fun r => { r with cm := { r.cm with last := 0 } }
    fail Code.notAllowed
  else do
    Cmd.mod fun r => { r with cm := { r.cm with last := q.sub } }
    let start := (r.cm.idx + 1).toNat
    let ((m, hit), j) ← scanUp (fun f => f.dm) nextRpBody (r.cm.nRp - start) start (none, false)
    if hit then Cmd.mod fun r => { r with cm := { r.cm with idx := (j : Int) } } else pure ()
    match m with
    | none => throw (.ub .uninit)
    | some m => return .rp m.rpId m.hash none

/-- `generate_credential_response` (`ctap.c:1798-1885`). The encoding, wrong for SM2 credentials,
is in `CtapEnc.lean`. -/
def cmCred (x : Ext) (withTotal : Bool) : M Resp := do
  let r ← Cmd.get
  let s := r.cm.slots
  let total := popCount s 64
  match lowest s 64 with
  | none => do
    Cmd.mod fun r => { r with cm := { r.cm with idx := -1 } }
    fail Code.unhandled
  | some p => do
    Cmd.mod fun r => { r with cm := { r.cm with idx := (p : Int), slots := s &&& ~~~(BitVec.twoPow 64 p) } }
    let d ← rdRec rdRecs p
    match ← verifyKh x d.cid with
    | none => fail Code.unhandled
    | some key => do
      failIf (!algOk r.sm2 (Cid.alg d.cid)) 0xFF
      let lbk ← if d.lbk then (do let k ← largeBlobKey x d.cid; pure (some k)) else pure none
      return .cred ⟨d.user, d.cid, key, if withTotal then some total else none, Cid.cp d.cid, lbk⟩

/-- The loop of `CM_CMD_ENUMERATE_CREDENTIALS_BEGIN` (`ctap.c:1785-1790`). -/
def credsBody (rp : Bytes) (_ : Nat) (m : Meta) (_ : Option Meta) : Option Meta × Bool :=
  if m.slots == 0#64 then (none, false)
  else if m.hash == rp then (some m, true) else (none, false)

/-- `CM_CMD_ENUMERATE_CREDENTIALS_BEGIN` (`ctap.c:1778-1797`). -/
def cmCredsBegin (x : Ext) (q : CmReq) (numbers : Byte) : M Resp := do
  let r ← Cmd.get
  failIf (!r.tok.rpOk q.rpHash) Code.pinAuthInvalid
  failIf (numbers == 0) Code.noCredentials
  let n ← metaCount
  Cmd.mod fun r => { r with cm := { r.cm with nRp := n } }
  let (m, j) ← scanUp (fun f => f.dm) (credsBody q.rpHash) n 0 none
  Cmd.mod fun r => { r with cm := { r.cm with idx := (j : Int) } }
  match m with
  | none => fail Code.noCredentials
  | some m => do
    Cmd.mod fun r => { r with cm := { r.cm with slots := m.slots } }
    cmCred x true

/-- `CM_CMD_ENUMERATE_CREDENTIALS_GET_NEXT_CREDENTIAL` (`ctap.c:1887-1896`). -/
def cmNextCred (x : Ext) (q : CmReq) : M Resp := do
  let r ← Cmd.get
  if r.lastCmd != 0x0A || (r.cm.last != 4 && r.cm.last != 5) then do
    Cmd.mod fun r => { r with cm := { r.cm with last := 0 } }
    fail Code.notAllowed
  else do
    Cmd.mod fun r => { r with cm := { r.cm with last := q.sub } }
    cmCred x false

/-- The search for a credential by its identifier (`ctap.c:1904-1914,1960-1970`). -/
def cidBody (cid : Bytes) (_ : Nat) (d : Dc) (_ : Option Dc) : Option Dc × Bool :=
  if d.deleted then (none, false)
  else if d.cid == cid then (some d, true) else (none, false)

/-- That search: slot and record (`ctap.c:1901-1915,1956-1974`). -/
def cmFind (q : CmReq) (numbers : Byte) : M (Dc × Nat) := do
  let r ← Cmd.get
  failIf (!r.tok.rpOk (Cid.rp q.cid)) Code.pinAuthInvalid
  failIf (numbers == 0) Code.noCredentials
  let n ← Cmd.rdOr (fun f => (rdRecs f).map (·.length)) (.code Code.unhandled)
  let (d, p) ← scanUp rdRecs (cidBody q.cid) n 0 none
  Cmd.mod fun r => { r with cm := { r.cm with idx := (p : Int) } }
  match d with
  | none => fail Code.noCredentials
  | some d => return (d, p)

/-- The search for the metadata of a deleted credential (`ctap.c:1935-1946`). -/
def delBody (rp : Bytes) (_ : Nat) (m : Meta) (_ : Option Meta) : Option Meta × Bool :=
  if m.hash == rp then (some m, true) else (none, false)

/-- `CM_CMD_DELETE_CREDENTIAL` (`ctap.c:1898-1950`). -/
def cmDelete (q : CmReq) (numbers : Byte) : M Resp := do
  let (d, p) ← cmFind q numbers
  let a ← Cmd.rdOr rdAttr (.code Code.unhandled)
  let a := { a with index := UInt8.ofNat p, del := true }
  Cmd.wrOr (updAttr a) (.code Code.unhandled)
  Cmd.wrOr (updRec p { d with deleted := true }) (.code Code.unhandled)
  let k ← Cmd.rdOr (fun f => f.dm.map (·.length)) (.code Code.unhandled)
  let (m, j) ← scanUp (fun f => f.dm) (delBody (Cid.rp q.cid)) k 0 none
  match m with
  | some m => Cmd.wrOr (updMeta j { m with slots := m.slots &&& ~~~(BitVec.twoPow 64 p) }) (.code Code.unhandled)
  | none => pure ()
  Cmd.wrOr (updAttr { a with numbers := a.numbers - 1, del := false }) (.code Code.unhandled)
  return .empty

/-- `CM_CMD_UPDATE_USER_INFORMATION` (`ctap.c:1952-1985`). -/
def cmUpdate (q : CmReq) (numbers : Byte) : M Resp := do
  let (d, p) ← cmFind q numbers
  failIf (d.user.id != q.user.id) Code.invalidParameter
  Cmd.wrOr (updRec p { d with user := q.user }) (.code Code.unhandled)
  return .empty

/-- `ctap_credential_management` (`ctap.c:1641-1990`). -/
def credMgmt (x : Ext) (i : In) (req : Except Byte CmReq) : M Resp :=
  match req with
  | .error c => fail c
  | .ok q => do
    consistency
    let numbers ← if cmAuthed q.sub then cmAuth x i q else pure 0
    if q.sub == 1 then do
      let r ← Cmd.get
      failIf r.tok.rp.isSome Code.pinAuthInvalid
      return .credsMeta numbers.toNat (64 - (numbers.toNat : Int))
    else if q.sub == 2 then cmRpsBegin numbers
    else if q.sub == 3 then cmNextRp q
    else if q.sub == 4 then cmCredsBegin x q numbers
    else if q.sub == 5 then cmNextCred x q
    else if q.sub == 6 then cmDelete q numbers
    else if q.sub == 7 then cmUpdate q numbers
    else return .empty

/-! ### The rest -/

/-- `ctap_reset_data` (`ctap.c:1997-2003`). -/
def resetData (i : In) : M Resp := do
  failIf (i.tick > 10000) Code.notAllowed
  install i true
  return .empty

/-- Writing `b` at `off` of a file, the gap filled with zeros. -/
def writeAt (old : Bytes) (off : Nat) (b : Bytes) : Bytes :=
  (old ++ List.replicate (off - old.length) 0).take off ++ b ++ old.drop (off + b.length)

/-- What the token authenticates for a large-blob write (`ctap.c:2102-2109`). -/
def lbMsg (x : Ext) (q : LbReq) : Bytes :=
  List.replicate 32 0xFF ++ [0x0C, 0x00, UInt8.ofNat q.offset, UInt8.ofNat (q.offset / 256), 0, 0] ++ x.sha q.set

/-- The token check of a large-blob write (`ctap.c:2083-2120`). -/
def lbAuth (x : Ext) (i : In) (q : LbReq) : M Unit := do
  let p ← hasPin
  if !p then pure ()
  else match q.pinAuth, q.proto with
    | none, _ => fail Code.puatRequired
    | some _, none => fail Code.missingParameter
    | some auth, some proto => do
      let r ← Cmd.get
      failIf (r.consec == 0) Code.pinAuthBlocked
      let ok ← verifyToken x i (lbMsg x q) auth proto
      failIf (!ok) Code.pinAuthInvalid
      failIf (!r.tok.has permLbw) Code.pinAuthInvalid

/-- Writing a fragment (`ctap.c:2056-2158`). The array is hashed with one read instead of one per 256
bytes. -/
def lbSet (x : Ext) (i : In) (q : LbReq) : M Resp := do
  if q.offset == 0 then Cmd.mod fun r => { r with lb := ⟨0, q.length⟩ } else pure ()
  let r ← Cmd.get
  failIf (q.offset != r.lb.off) Code.invalidSeq
  lbAuth x i q
  failIf (q.offset + q.set.length > r.lb.len) Code.invalidParameter
  Cmd.wrOr (fun f => some { f with
      lbt := some (if q.offset == 0 then q.set else writeAt (f.lbt.getD []) q.offset q.set) })
    (.code Code.unhandled)
  Cmd.mod fun r => { r with lb := { r.lb with off := r.lb.off + q.set.length } }
  if q.offset + q.set.length == r.lb.len then do
    Cmd.mod fun r => { r with lb := { r.lb with len := r.lb.len - 16 } }
    let n := r.lb.len - 16
    let b ← Cmd.rdOr (fun f => f.lbt) (.code Code.unhandled)
    failIf ((x.sha (b.take n)).take 16 != (b.drop n).take 16) Code.integrity
    Cmd.wrOr (fun f => f.lbt.map fun b => { f with lb := some b, lbt := none }) (.code Code.unhandled)
    return .empty
  else return .empty

/-- `ctap_large_blobs` (`ctap.c:2005-2160`). -/
def largeBlobs (x : Ext) (i : In) (req : Except Byte LbReq) : M Resp :=
  match req with
  | .error c => fail c
  | .ok q =>
    match q.get with
    | some n => do
      let size ← Cmd.rdOr (fun f => f.lb.map (·.length)) (.code Code.unhandled)
      failIf (q.offset > size) Code.invalidParameter
      let b ← Cmd.rdOr (fun f => f.lb) (.code Code.unhandled)
      return .config ((b.drop q.offset).take (if q.offset + n > size then size - q.offset else n))
    | none => lbSet x i q

/-- The command handlers of `ctap_process_cbor` (`ctap.c:2171-2228`). `ctap_get_info` is reduced to
its only variable option. -/
def handle (x : Ext) (i : In) : Req → M Resp
  | .mc q => makeCredential x i q
  | .ga q => getAssertion x i q
  | .gna => getNextAssertion x i
  | .info => do
    let p ← hasPin
    return .info p
  | .cp q => clientPin x i q
  | .reset => resetData i
  | .cm q => credMgmt x i q
  | .sel => do
    wait i Code.actionTimeout
    return .empty
  | .lb q => largeBlobs x i q
  | .other _ => fail Code.unhandled

/-- The command byte as remembered in `last_cmd`. -/
def Req.cmd : Req → Byte
  | .mc _ => 0x01
  | .ga _ => 0x02
  | .gna => 0x08
  | .info => 0x04
  | .cp _ => 0x06
  | .reset => 0x07
  | .cm _ => 0x0A
  | .sel => 0x0B
  | .lb _ => 0x0C
  | .other c => c

/-- `ctap_process_cbor` for a non-empty request (`ctap.c:2162-2234`). -/
def process (x : Ext) (i : In) (q : Req) : M Resp := do
  Cmd.mod fun r => { r with tok := r.tok.observe i.tick }
  match ← Cmd.lift (handle x i q).run with
  | .ok a => do
    Cmd.mod fun r => { r with lastCmd := q.cmd }
    return a
  | .error (.code c) => do
    Cmd.mod fun r => { r with lastCmd := 0xFF }
    fail c
  | .error (.ub u) => throw (.ub u)

/-! ### U2F (`u2f.c`) -/

inductive UReq where
  | register (chal app : Bytes)
  /-- `checkOnly`: P1 = 7 -/
  | authenticate (chal app kh : Bytes) (checkOnly : Bool)
  deriving DecidableEq, Repr

inductive UResp where
  /-- key handle and the private key that belongs to the public key in the response -/
  | registered (cid key : Bytes)
  /-- counter and the private key of the signature over `app`, presence, counter and `chal` -/
  | signed (ctr : UInt32) (key app chal : Bytes)
  deriving DecidableEq, Repr

/-- U2F errors: conditions not satisfied, wrong data, other. -/
def swTouch : Byte := 1
def swData : Byte := 2
def swOther : Byte := 3

/-- The touch of U2F (`u2f.c:19-24,80-85`). -/
def uTouch (i : In) : M Unit := failIf (!i.nfc && !i.touch) swTouch

/-- `u2f_register` and `u2f_authenticate` with well-formed lengths (`u2f.c:16-103`). -/
def u2f (x : Ext) (i : In) : UReq → M UResp
  | .register _ app => do
    uTouch i
    let kh ← Cmd.rdOr (rdCert (·.kh)) (.code swOther)
    let cid := makeCid x kh i.rndNonce 0 1 app ES256
    let _ ← Cmd.rdOr (rdCert (fun c => some c.data)) (.code swOther)
    -- a failing read of the device key leaves the response without a signature
    let _ ← Cmd.rdF (rdCert (·.key))
    return .registered cid (khPri x kh (i.rndNonce ++ [0, 1]))
  | .authenticate chal app kh check => do
    failIf (app != Cid.rp kh) swData
    let k ← Cmd.rdOr (rdCert (·.kh)) (.code swData)
    failIf (khTag x k (Cid.nonce kh) app != Cid.tag kh) swData
    failIf check swTouch
    uTouch i
    -- every failure of `ctap_make_auth_data` becomes "conditions not satisfied"
    match ← Cmd.lift (makeAuthData x i app 0x01 ES256 0 0).run with
    | .ok ad => return .signed ad.ctr (khPri x k (Cid.nonce kh)) app chal
    | .error _ => fail swTouch

/-! ### Histories -/

/-- What can happen to the applet. -/
inductive Op where
  /-- power is applied: static storage is cleared and `ctap_install(0)` runs
  (`src/applets.c:10-20`) -/
  | powerOn (i : In)
  /-- a CTAP2 command, over any transport -/
  | cbor (i : In) (q : Req)
  /-- a U2F command -/
  | u2f (i : In) (q : UReq)
  /-- the administrator's reset of the applet (`ctap_install(1)`) -/
  | adminReset (i : In)
  /-- `ctap_install_private_key` (`ctap.c:96-104`) -/
  | installKey (k : Bytes)
  /-- `ctap_install_cert` (`ctap.c:106-109`) -/
  | installCert (c : Bytes)
  /-- `ctap_write_sm2_config` (`ctap.c:119-124`) -/
  | writeSm2 (s : Sm2)

/-- What is seen. -/
inductive Out where
  | resp (r : Resp)
  | u2f (r : UResp)
  | done
  | err (c : Byte)
  | ub (u : Ub)
  | cut
  deriving DecidableEq, Repr

structure St where
  flash : Flash
  ram : Ram
  deriving DecidableEq, Repr

/-- Running a command; when the power is cut, volatile memory is lost. -/
def exec {α : Type} (m : M α) (g : α → Out) (s : St) (env : Env) : St × Out :=
  match m.run ⟨s.flash, s.ram, env⟩ with
  | (none, w) => (⟨w.flash, Ram.init⟩, .cut)
  | (some (.ok a), w) => (⟨w.flash, w.ram⟩, g a)
  | (some (.error (.code c)), w) => (⟨w.flash, w.ram⟩, .err c)
  | (some (.error (.ub u)), w) => (⟨w.flash, w.ram⟩, .ub u)

/-- A negative result of a storage function. -/
def negErr : Byte := 0xFF

/-- `ctap_install_private_key` (`ctap.c:96-104`): the SM2 configuration is reset first; if that fails, the result is
positive. -/
def installKeyM (k : Bytes) : M Unit := do
  Cmd.mod fun r => { r with sm2 := ⟨false, 0xFFFFFFD0⟩ }
  Cmd.wrOr (updCert fun c => { c with sm2 := some ⟨false, 0xFFFFFFD0⟩ }) (.code Code.unhandled)
  Cmd.wrOr (updCert fun c => { c with key := some k }) (.code negErr)

/-- `ctap_install_cert` (`ctap.c:106-109`): creates the file if need be. -/
def installCertM (b : Bytes) : M Unit :=
  Cmd.wrOr (fun f => some { f with
      cert := some { f.cert.getD ⟨[], none, none, none, none, none, none, none⟩ with data := b } })
    (.code Code.unhandled)

/-- `ctap_write_sm2_config` (`ctap.c:119-124`): the copy in RAM changes even when the write fails. -/
def writeSm2M (s : Sm2) : M Unit := do
  let ok ← Cmd.wrF (updCert fun c => { c with sm2 := some s })
  Cmd.mod fun r => { r with sm2 := s }
  failIf (!ok) Code.unhandled

def step (x : Ext) (s : St) (o : Op) (env : Env) : St × Out :=
  match o with
  | .powerOn i => exec (install i false) (fun _ => .done) ⟨s.flash, Ram.init⟩ env
  | .cbor i q => exec (process x i q) .resp s env
  | .u2f i q => exec (u2f x i q) .u2f s env
  | .adminReset i => exec (install i true) (fun _ => .done) s env
  | .installKey k => exec (installKeyM k) (fun _ => .done) s env
  | .installCert c => exec (installCertM c) (fun _ => .done) s env
  | .writeSm2 c => exec (writeSm2M c) (fun _ => .done) s env

/-- A history: the final state and what was seen at each step. -/
def run (x : Ext) (s : St) : List (Op × Env) → St × List Out
  | [] => (s, [])
  | (o, env) :: rest =>
    let (s', out) := step x s o env
    let (s'', outs) := run x s' rest
    (s'', out :: outs)

/-- An erased device. -/
def St.blank : St := ⟨⟨none, none, none, none, none⟩, Ram.init⟩

end Verif.Ctap
