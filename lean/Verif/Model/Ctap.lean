import Verif.Base.Parse
import Verif.Base.Zoom
/-
The FIDO2/U2F applet, part 1: data, external functions, PIN token, key handles, PIN
(`/repo/applets/ctap/secret.c`, `/repo/applets/ctap/ctap.c:60-94,192-236`,
`/repo/applets/ctap/ctap-internal.h`).

Cryptography is a parameter (`Ext`); signatures are symbolic (the response records what was signed
with which key).  Requests arrive parsed; the parser is modelled separately (`Model/CtapParse`).
The CBOR encoding of responses is tinycbor's and is not modelled: responses are records, and the
output buffer is assumed to be large enough.
-/
namespace Verif.Ctap

/- CTAP status codes (`/repo/applets/ctap/ctap-errors.h:5-60`). -/
namespace Code
abbrev ok : Byte := 0x00
abbrev invalidCommand : Byte := 0x01
abbrev invalidParameter : Byte := 0x02
abbrev invalidLength : Byte := 0x03
abbrev invalidSeq : Byte := 0x04
abbrev unexpectedType : Byte := 0x11
abbrev invalidCbor : Byte := 0x12
abbrev missingParameter : Byte := 0x14
abbrev limitExceeded : Byte := 0x15
abbrev storageFull : Byte := 0x18
abbrev excluded : Byte := 0x19
abbrev unsupportedAlgorithm : Byte := 0x26
abbrev denied : Byte := 0x27
abbrev keyStoreFull : Byte := 0x28
abbrev unsupportedOption : Byte := 0x2B
abbrev invalidOption : Byte := 0x2C
abbrev cancel : Byte := 0x2D
abbrev noCredentials : Byte := 0x2E
abbrev actionTimeout : Byte := 0x2F
abbrev notAllowed : Byte := 0x30
abbrev pinInvalid : Byte := 0x31
abbrev pinBlocked : Byte := 0x32
abbrev pinAuthInvalid : Byte := 0x33
abbrev pinAuthBlocked : Byte := 0x34
abbrev pinNotSet : Byte := 0x35
abbrev puatRequired : Byte := 0x36
abbrev pinPolicy : Byte := 0x37
abbrev integrity : Byte := 0x3D
abbrev unauthorizedPermission : Byte := 0x40
abbrev unhandled : Byte := 0xF1
end Code

/-- How a command function can leave early: with a CTAP status, or with undefined behaviour. -/
inductive Err where
  | code (c : Byte)
  | ub (u : Ub)
  deriving DecidableEq, Repr

/-- `Permission` bits (`ctap-internal.h:140-145`). -/
abbrev permMc : Byte := 0x01
abbrev permGa : Byte := 0x02
abbrev permCm : Byte := 0x04
abbrev permLbw : Byte := 0x10

/-- COSE algorithms as two's complement `int32_t` (`cose-key.h:17-18`). -/
abbrev ES256 : UInt32 := 0xFFFFFFF9
abbrev EDDSA : UInt32 := 0xFFFFFFF8

/-- Functions of canokey-crypto that the applet calls. -/
structure Ext where
  /-- `hmac_sha256 key msg` -/
  hmac : Bytes → Bytes → Bytes
  /-- `sha256_raw` -/
  sha : Bytes → Bytes
  /-- `ecdh` with the key-agreement key number `n` (`cp_regenerate` makes a new one); `none` for a
  negative result -/
  ecdh : Nat → Bytes → Option Bytes
  /-- public part of key-agreement key `n` -/
  kaPub : Nat → Bytes
  /-- AES-256-CBC decryption: key, iv, ciphertext -/
  cbcDec : Bytes → Bytes → Bytes → Bytes
  /-- AES-256-CBC encryption: key, iv, plaintext -/
  cbcEnc : Bytes → Bytes → Bytes → Bytes

/-! ### Credential identifiers

`credential_id` (`ctap-internal.h:241-246`) is kept as its 70 bytes. -/
namespace Cid
/-- first 16 bytes -/
def tag (b : Bytes) : Bytes := b.take 16
/-- 16 random bytes followed by the resident and credProtect bytes -/
def nonce (b : Bytes) : Bytes := (b.drop 16).take 18
/-- `nonce[CREDENTIAL_NONCE_DC_POS]` -/
def dc (b : Bytes) : Byte := b.getD 32 0
/-- `nonce[CREDENTIAL_NONCE_CP_POS]` -/
def cp (b : Bytes) : Byte := b.getD 33 0
/-- relying party hash -/
def rp (b : Bytes) : Bytes := (b.drop 34).take 32
/-- `alg_type`, little endian -/
def alg (b : Bytes) : UInt32 :=
  (b.getD 66 0).toUInt32 ||| ((b.getD 67 0).toUInt32 <<< 8) ||| ((b.getD 68 0).toUInt32 <<< 16)
    ||| ((b.getD 69 0).toUInt32 <<< 24)
end Cid

/-- Little-endian bytes of an `int32_t`. -/
def le32 (v : UInt32) : Bytes :=
  [v.toUInt8, (v >>> 8).toUInt8, (v >>> 16).toUInt8, (v >>> 24).toUInt8]

/-- `user_entity` (`ctap-internal.h:234-239`). -/
structure User where
  id : Bytes
  name : Bytes
  disp : Bytes
  deriving DecidableEq, Repr

/-- `CTAP_discoverable_credential` (`ctap-internal.h:248-255`); `blob` is the first
`cred_blob_len` bytes of `cred_blob`. -/
structure Dc where
  cid : Bytes
  user : User
  deleted : Bool
  lbk : Bool
  blob : Bytes
  deriving DecidableEq, Repr

/-- `CTAP_dc_general_attr` (`ctap-internal.h:257-262`). -/
structure Attr where
  numbers : Byte
  index : Byte
  add : Bool
  del : Bool
  deriving DecidableEq, Repr

/-- `CTAP_rp_meta` (`ctap-internal.h:264-269`); `rpId` is the first `rp_id_len` bytes. -/
structure Meta where
  hash : Bytes
  rpId : Bytes
  slots : BitVec 64
  deriving DecidableEq, Repr

/-- `CTAP_sm2_attr` (`ctap-internal.h:366-370`), without the curve id. -/
structure Sm2 where
  enabled : Bool
  algo : UInt32
  deriving DecidableEq, Repr

/-- `CTAP_CERT_FILE` and its attributes (`ctap-internal.h:16-24`). -/
structure Cert where
  /-- file contents: the attestation certificate -/
  data : Bytes
  /-- `KEY_ATTR` -/
  key : Option Bytes
  /-- `SIGN_CTR_ATTR` -/
  ctr : Option UInt32
  /-- `PIN_ATTR`: empty when no PIN is set -/
  pin : Option Bytes
  /-- `PIN_CTR_ATTR` -/
  pinCtr : Option Byte
  /-- `KH_KEY_ATTR` -/
  kh : Option Bytes
  /-- `HE_KEY_ATTR` -/
  he : Option Bytes
  /-- `SM2_ATTR` -/
  sm2 : Option Sm2
  deriving DecidableEq, Repr

/-- `DC_FILE` and its attribute. The file is an array of records: its length is always a multiple
of the record size because every write is of one record at a multiple of it. -/
structure DcFile where
  recs : List Dc
  attr : Option Attr
  deriving DecidableEq, Repr

/-- The applet's files; `none` when a file does not exist. -/
structure Flash where
  cert : Option Cert
  dc : Option DcFile
  /-- `DC_META_FILE` -/
  dm : Option (List Meta)
  /-- `LB_FILE` -/
  lb : Option Bytes
  /-- `LB_FILE_TMP` -/
  lbt : Option Bytes
  deriving DecidableEq, Repr

/-- The pinUvAuthToken (`secret.c:17-24`). -/
structure Tok where
  token : Bytes
  rp : Option Bytes
  perms : Byte
  inUse : Bool
  uv : Bool
  up : Bool
  timeout : UInt32
  deriving DecidableEq, Repr

/-- Options of a request (`ctap-internal.h:70-72`). -/
inductive Opt where
  | no | yes | absent
  deriving DecidableEq, Repr

/-- hmac-secret input of getAssertion (`ctap-internal.h:325-330`). -/
structure HmacSecret where
  /-- key agreement, later the shared secret -/
  key : Bytes
  /-- encrypted salts, later the salts -/
  salt : Bytes
  saltLen : Nat
  auth : Bytes
  proto : Nat
  deriving DecidableEq, Repr

/-- `CTAP_get_assertion` (`ctap-internal.h:314-333`). -/
structure GaReq where
  rpHash : Bytes
  cdh : Bytes
  allow : List Bytes
  up : Opt
  uv : Opt
  rk : Opt
  /-- `none` when absent -/
  pinAuth : Option Bytes
  /-- `none` when absent -/
  proto : Option Nat
  hs : Option HmacSecret
  lbk : Bool
  credBlob : Bool
  deriving DecidableEq, Repr

/-- Static variables of `ctap_get_assertion` (`ctap.c:757-760`). -/
structure GaS where
  req : GaReq
  list : List Nat
  /-- `number_of_credentials` -/
  num : Nat
  /-- `credential_counter` -/
  ctr : Nat
  uv : Bool
  up : Bool
  timer : UInt32
  deriving DecidableEq, Repr

/-- Static variables of `ctap_credential_management` (`ctap.c:1642,1650-1651`). -/
structure CmS where
  last : Byte
  idx : Int
  nRp : Nat
  slots : BitVec 64
  deriving DecidableEq, Repr

/-- Static variables of `ctap_large_blobs` (`ctap.c:2006`). -/
structure LbS where
  off : Nat
  len : Nat
  deriving DecidableEq, Repr

/-- Volatile state. -/
structure Ram where
  tok : Tok
  /-- number of the key-agreement key -/
  ka : Nat
  /-- `consecutive_pin_counter` -/
  consec : Byte
  /-- `last_cmd` -/
  lastCmd : Byte
  sm2 : Sm2
  ga : GaS
  cm : CmS
  lb : LbS
  deriving DecidableEq, Repr

/-- Static storage at power-up. -/
def Tok.init : Tok := ⟨List.replicate 32 0, none, 0, false, false, false, 0⟩
def GaReq.init : GaReq := ⟨List.replicate 32 0, List.replicate 32 0, [], .no, .no, .no, none, none, none, false, false⟩
/-- Static storage at power-up: zero. -/
def Ram.init : Ram :=
  ⟨Tok.init, 0, 0, 0, ⟨false, 0⟩, ⟨GaReq.init, [], 0, 0, false, false, 0⟩, ⟨0, 0, 0, 0⟩, ⟨0, 0⟩⟩

/-- Result of asking for user presence (`wait_for_user_presence`). -/
inductive Presence where
  | ok | cancel | timeout
  deriving DecidableEq, Repr

/-- What a command takes from its surroundings. -/
structure In where
  /-- `device_get_tick()` during the command -/
  tick : UInt32
  /-- `device_get_tick()` at its end -/
  tick' : UInt32
  nfc : Bool
  presence : Presence
  /-- `get_touch_result() != TOUCH_NO` (U2F) -/
  touch : Bool
  /-- `random_buffer` for a token -/
  rndTok : Bytes
  /-- `random_buffer` for the nonce of a key handle whose key is accepted by `ecc_complete_key` -/
  rndNonce : Bytes
  /-- `random_buffer` for an IV -/
  rndIv : Bytes
  /-- `random_buffer` for the two device keys -/
  rndKh : Bytes
  rndHe : Bytes
  /-- previous contents of the stack under a `credential_id` buffer -/
  junk : Bytes
  deriving DecidableEq, Repr

abbrev M := Cmd Flash Ram Err

/-- `return CTAP2_ERR_…`. -/
def fail {α : Type} (c : Byte) : M α := throw (.code c)
/-- `if (b) return CTAP2_ERR_…`. -/
def failIf (b : Bool) (c : Byte) : M Unit := if b then fail c else pure ()

/-! ### Storage -/

/-- An attribute of the certificate file. -/
def rdCert {α : Type} (g : Cert → Option α) : Flash → Option α := fun f => f.cert.bind g
/-- Writing an attribute of the certificate file; fails if the file does not exist. -/
def updCert (g : Cert → Cert) : Flash → Option Flash := fun f =>
  f.cert.map fun c => { f with cert := some (g c) }
/-- The records of `DC_FILE`. -/
def rdRecs : Flash → Option (List Dc) := fun f => f.dc.map (·.recs)
/-- The attribute of `DC_FILE`. -/
def rdAttr : Flash → Option Attr := fun f => f.dc.bind (·.attr)
/-- Writing the attribute of `DC_FILE`. -/
def updAttr (a : Attr) : Flash → Option Flash := fun f =>
  f.dc.map fun d => { f with dc := some { d with attr := some a } }
/-- Writing element `p` of an array; `p` is at most the number of elements. -/
def setAt {α : Type} (l : List α) (p : Nat) (x : α) : List α :=
  if p < l.length then l.set p x else l ++ [x]
/-- Writing record `p` of `DC_FILE` (`LFS_O_CREAT`: an absent file is created). -/
def updRec (p : Nat) (d : Dc) : Flash → Option Flash := fun f =>
  match f.dc with
  | none => some { f with dc := some ⟨[d], none⟩ }
  | some g => some { f with dc := some { g with recs := setAt g.recs p d } }
/-- Writing record `p` of `DC_META_FILE`. -/
def updMeta (p : Nat) (m : Meta) : Flash → Option Flash := fun f =>
  match f.dm with
  | none => some { f with dm := some [m] }
  | some g => some { f with dm := some (setAt g p m) }

/-- Reading record `i` of an array file into an uninitialised local: an error of the file system is
reported, a read past the end returns no bytes and the record stays uninitialised. -/
def rdRec {β : Type} (recs : Flash → Option (List β)) (i : Nat) : M β := do
  let l ← Cmd.rdOr recs (.code Code.unhandled)
  match l[i]? with
  | none => throw (.ub .uninit)
  | some b => pure b

/-- `for (; k > 0; --k, ++i) { if (read_file(.., i) < 0) return UNHANDLED; body }`; the body says
whether to break.  Returns the state and the index at which the loop ended. -/
def scanUp {β σ : Type} (recs : Flash → Option (List β)) (body : Nat → β → σ → σ × Bool) :
    Nat → Nat → σ → M (σ × Nat)
  | 0, i, s => pure (s, i)
  | k + 1, i, s => do
    let b ← rdRec recs i
    match body i b s with
    | (s', true) => pure (s', i)
    | (s', false) => scanUp recs body k (i + 1) s'

/-- `for (i = n - 1; i >= 0; --i) { if (read_file(.., i) < 0) return UNHANDLED; body }`. -/
def scanDown {β σ : Type} (recs : Flash → Option (List β)) (body : Nat → β → σ → σ) :
    Nat → σ → M σ
  | 0, s => pure s
  | k + 1, s => do
    let b ← rdRec recs k
    scanDown recs body k (body k b s)

/-! ### PIN token (`secret.c:29-78,106-109,184-210`) -/

/-- `cp_begin_using_uv_auth_token` (`secret.c:29-34`). -/
def Tok.begin (t : Tok) (present : Bool) (now : UInt32) : Tok :=
  { t with up := present, uv := true, timeout := now + 30000, inUse := true }

/-- `cp_stop_using_pin_uv_auth_token` (`secret.c:72-78`). -/
def Tok.stop (t : Tok) : Tok :=
  { t with rp := none, perms := 0, inUse := false, uv := false, up := false }

/-- `cp_pin_uv_auth_token_usage_timer_observer` (`secret.c:37-43`). -/
def Tok.observe (t : Tok) (now : UInt32) : Tok :=
  if !t.inUse then t else if now > t.timeout then t.stop else t

/-- `cp_get_user_present_flag_value` (`secret.c:46-49`). -/
def Tok.presentFlag (t : Tok) : Bool := t.inUse && t.up
/-- `cp_get_user_verified_flag_value` (`secret.c:52-55`). -/
def Tok.verifiedFlag (t : Tok) : Bool := t.inUse && t.uv

/-- `cp_clear_user_present_flag`, `cp_clear_user_verified_flag`,
`cp_clear_pin_uv_auth_token_permissions_except_lbw` (`secret.c:58-70`), always called together. -/
def Tok.clearFlags (t : Tok) : Tok :=
  if t.inUse then { t with up := false, uv := false, perms := t.perms &&& ~~~permLbw } else t

/-- `cp_reset_pin_uv_auth_token` (`secret.c:106-109`). -/
def Tok.reset (t : Tok) (rnd : Bytes) : Tok := { t with token := rnd }.stop

/-- `cp_verify` (`secret.c:173-182`): the first 16 bytes of the HMAC for protocol 1, else all 32;
`sig` is a 32-byte buffer that was zeroed before the parameter was copied into it. -/
def verifyMac (x : Ext) (key msg sig : Bytes) (proto : Nat) : Bool :=
  let h := x.hmac key msg
  let buf := sig ++ List.replicate 32 0
  if proto == 1 then h.take 16 == buf.take 16 else h.take 32 == buf.take 32

/-- `cp_verify_pin_token` (`secret.c:184-188`): a token in use gets a new timeout even when the
verification fails. -/
def verifyToken (x : Ext) (i : In) (msg sig : Bytes) (proto : Nat) : M Bool := do
  let r ← Cmd.get
  if !r.tok.inUse then return false
  Cmd.mod fun r => { r with tok := { r.tok with timeout := i.tick + 30000 } }
  return verifyMac x r.tok.token msg sig proto

/-- `cp_has_permission` (`secret.c:194-196`). -/
def Tok.has (t : Tok) (p : Byte) : Bool := t.perms &&& p != 0
/-- `cp_verify_rp_id` (`secret.c:202-205`). -/
def Tok.rpOk (t : Tok) (h : Bytes) : Bool :=
  match t.rp with
  | none => true
  | some r => r == h
/-- `cp_associate_rp_id` (`secret.c:207-210`). -/
def Tok.associate (t : Tok) (h : Bytes) : Tok := { t with rp := some h }

/-! ### PIN protocols (`secret.c:82-171`) -/

def hkdfHmac : Bytes := "CTAP2 HMAC key".toUTF8.toList ++ [1]
def hkdfAes : Bytes := "CTAP2 AES key".toUTF8.toList ++ [1]

/-- `cp_decapsulate` with `hkdf` and `cp2_kdf` (`secret.c:82-91,115-125`): the shared secret. -/
def decapsulate (x : Ext) (ka : Nat) (pub : Bytes) (proto : Nat) : Option Bytes :=
  (x.ecdh ka pub).map fun z =>
    if proto == 1 then x.sha z
    else
      let prk := x.hmac (List.replicate 32 0) z
      x.hmac prk hkdfHmac ++ x.hmac prk hkdfAes

/-- `cp_decrypt` (`secret.c:153-171`): `none` for a negative result. The block cipher itself does
not fail on whole blocks; a partial last block is not modelled. -/
def decrypt (x : Ext) (key input : Bytes) (proto : Nat) : Option Bytes :=
  if proto == 1 then some (x.cbcDec (key.take 32) (List.replicate 16 0) input)
  else if input.length < 16 then none
  else some (x.cbcDec (key.drop 32) (input.take 16) (input.drop 16))

/-- `cp_encrypt` (`secret.c:127-147`): for a protocol other than 1 and 2 the IV is not sent. -/
def encrypt (x : Ext) (i : In) (key input : Bytes) (proto : Nat) : Bytes :=
  if proto == 1 then x.cbcEnc (key.take 32) (List.replicate 16 0) input
  else
    let c := x.cbcEnc (key.drop 32) i.rndIv input
    if proto == 2 then i.rndIv ++ c else c

/-! ### PIN (`secret.c:396-429`) -/

/-- `has_pin` (`secret.c:396-399`): a failing read counts as "there is a PIN". -/
def hasPin : M Bool := do
  match ← Cmd.rdF (rdCert (·.pin)) with
  | none => return true
  | some p => return !p.isEmpty

/-- `get_pin_retries` (`secret.c:422-427`); the callers turn a negative result into `unhandled`. -/
def pinRetries : M Byte := Cmd.rdOr (rdCert (·.pinCtr)) (.code Code.unhandled)

/-- `set_pin_retries` (`secret.c:429`). -/
def setPinRetries (n : Byte) : M Unit :=
  Cmd.wrOr (updCert fun c => { c with pinCtr := some n }) (.code Code.unhandled)

/-- `set_pin` with a non-empty PIN (`secret.c:401-412`). -/
def setPin (x : Ext) (pin : Bytes) : M Unit := do
  Cmd.wrOr (updCert fun c => { c with pin := some ((x.sha pin).take 16) }) (.code Code.unhandled)
  setPinRetries 8

/-- `verify_pin_hash` (`secret.c:414-420`): is the candidate the stored hash?  A stored attribute
shorter than 16 bytes leaves part of the compared buffer uninitialised. -/
def verifyPinHash (cand : Bytes) : M Bool := do
  let h ← Cmd.rdOr (rdCert (·.pin)) (.code Code.unhandled)
  if h.length < 16 then throw (.ub .uninit)
  return h.take 16 == cand.take 16

/-- The loop that finds the last non-zero byte of the padded new PIN (`ctap.c:1494-1496,
1557-1559`): the greatest `i ≤ 63` with a non-zero byte, else 0. -/
def lastNonZero (b : Bytes) : Nat → Nat
  | 0 => 0
  | k + 1 => if b.getD (k + 1) 0 == 0 then lastNonZero b k else k + 1

/-- Setting the decrypted new PIN (`ctap.c:1494-1499,1557-1562`). -/
def storeNewPin (x : Ext) (plain : Bytes) : M Unit := do
  let i := lastNonZero plain 63
  failIf (i < 3 || i ≥ 63) Code.pinPolicy
  setPin x (plain.take (i + 1))

/-! ### Key handles -/

/-- `increase_counter` (`secret.c:242-249`). -/
def increaseCounter : M UInt32 := do
  let c ← Cmd.rdOr (rdCert (·.ctr)) (.code Code.unhandled)
  Cmd.wrOr (updCert fun e => { e with ctr := some (c + 1) }) (.code Code.unhandled)
  return c + 1

/-- `cose_alg_to_key_type` (`secret.c:212-222`): is the algorithm supported? -/
def algOk (s : Sm2) (alg : UInt32) : Bool :=
  alg == ES256 || alg == EDDSA || (s.enabled && alg == s.algo)

/-- Private key and full tag of a key handle (`secret.c:251-265,312-332`). -/
def khPri (x : Ext) (kh nonce : Bytes) : Bytes := x.hmac kh nonce
def khTag (x : Ext) (kh nonce rp : Bytes) : Bytes := (x.hmac (khPri x kh nonce) rp).take 16

/-- `generate_key_handle` (`secret.c:283-310`). -/
def makeCid (x : Ext) (kh rnd : Bytes) (dc cp : Byte) (rp : Bytes) (alg : UInt32) : Bytes :=
  let n := rnd ++ [dc, cp]
  khTag x kh n rp ++ n ++ rp ++ le32 alg

/-- `verify_key_handle` (`secret.c:312-332`): the private key of an authentic handle. -/
def verifyKh (x : Ext) (cid : Bytes) : M (Option Bytes) := do
  let kh ← Cmd.rdOr (rdCert (·.kh)) (.code Code.unhandled)
  if khTag x kh (Cid.nonce cid) (Cid.rp cid) == Cid.tag cid then
    return some (khPri x kh (Cid.nonce cid))
  else return none

/-- `check_credential_protect_requirements` (`secret.c:267-281`). -/
def protectOk (cid : Bytes) (withList uv : Bool) : Bool :=
  if Cid.cp cid == 2 then uv || withList
  else if Cid.cp cid == 3 then uv
  else true

/-! ### Installation -/

/-- Contents of a fresh large-blob array (`ctap.c:87-90`). -/
def emptyLb : Bytes :=
  [0x80, 0x76, 0xbe, 0x8b, 0x52, 0x8d, 0x00, 0x75, 0xf7, 0xaa, 0xe9, 0x8d, 0x6f, 0xa5, 0x7a, 0x6d, 0x3c]

/-- `cp_initialize` (`secret.c:93-96`). -/
def cpInit (i : In) (r : Ram) : Ram := { r with ka := r.ka + 1, tok := r.tok.reset i.rndTok }

/-- `ctap_install` (`ctap.c:66-94`). -/
def install (i : In) (reset : Bool) : M Unit := do
  Cmd.mod fun r => cpInit i { r with consec := 3, lastCmd := 0xFF }
  let lb ← if reset then pure none else Cmd.rdF (fun f => f.lb)
  if lb.isSome then
    let s ← Cmd.rdOr (rdCert (·.sm2)) (.code Code.unhandled)
    Cmd.mod fun r => { r with sm2 := s }
  else
    Cmd.wrOr (fun f => some { f with dc := some ⟨[], f.dc.bind (·.attr)⟩ }) (.code Code.unhandled)
    Cmd.wrOr (updAttr ⟨0, 0, false, false⟩) (.code Code.unhandled)
    Cmd.wrOr (fun f => some { f with dm := some [] }) (.code Code.unhandled)
    Cmd.wrOr (fun f => some { f with cert := some (f.cert.getD ⟨[], none, none, none, none, none, none, none⟩) })
      (.code Code.unhandled)
    Cmd.wrOr (updCert fun c => { c with ctr := some 0 }) (.code Code.unhandled)
    Cmd.wrOr (updCert fun c => { c with pin := some [] }) (.code Code.unhandled)
    Cmd.wrOr (updCert fun c => { c with kh := some i.rndKh }) (.code Code.unhandled)
    Cmd.wrOr (updCert fun c => { c with he := some i.rndHe }) (.code Code.unhandled)
    Cmd.wrOr (fun f => some { f with lb := some emptyLb }) (.code Code.unhandled)

/-- `ctap_consistency_check` (`ctap.c:192-236`). -/
def consistency : M Unit := do
  let a ← Cmd.rdOr rdAttr (.code Code.unhandled)
  if a.add || a.del then
    let p := a.index.toNat
    -- a failing `get_file_size` compares as "too short"
    let n ← Cmd.rdF (fun f => (rdRecs f).map (·.length))
    if n.getD 0 ≥ p + 1 then
      let d ← Cmd.rdOr (fun f => (rdRecs f).bind (·[p]?)) (.code Code.unhandled)
      if !d.deleted then Cmd.wrOr (updRec p { d with deleted := true }) (.code Code.unhandled)
    let k ← Cmd.rdOr (fun f => f.dm.map (·.length)) (.code Code.unhandled)
    -- the shift `1ull << attr.index`
    if k > 0 && p ≥ 64 then throw (.ub .oob)
    let (m, j) ← scanUp (fun f => f.dm)
      (fun _ m (_ : Option Meta) => if m.slots.getLsbD p then (some m, true) else (none, false)) k 0 none
    match m with
    | some m => Cmd.wrOr (updMeta j { m with slots := m.slots &&& ~~~(BitVec.twoPow 64 p) }) (.code Code.unhandled)
    | none => pure ()
    Cmd.wrOr (updAttr { a with numbers := if a.del then a.numbers - 1 else a.numbers, add := false, del := false })
      (.code Code.unhandled)

/-- `WAIT` (`ctap.c:39-48`): user presence. -/
def wait (i : In) (c : Byte) : M Unit :=
  if i.nfc then pure ()
  else match i.presence with
    | .ok => pure ()
    | .cancel => fail Code.cancel
    | .timeout => fail c

end Verif.Ctap
