import Verif.Model.CtapParse
/-
The FIDO2 applet, part 3: how responses are written (`/repo/applets/ctap/ctap.c:126-187,238-308,512-757,
1008-1218,1224-1418,1420-1895,2162-2235`).

The code calls tinycbor's encoder.  That library is not part of the repository; its functions are modelled
here from their documented behaviour: an item is appended if the buffer has room for it and refused
otherwise, and closing a container is an error unless it got as many items as were announced.  In three
places the code writes to the buffer itself, with no check.

Reading and writing of files and the response are interleaved in the code.  Here the response is written
after the command, from what the command computed (`Resp`).  The functions of `ctap.c` return
`CTAP2_ERR_INVALID_CBOR` if the encoder refuses an item; the theorems about this model say when that
happens.
-/
namespace Verif.Ctap.Enc

/-- What can go wrong: an error of the encoder, or a write past the end of the buffer. -/
inductive Bad where
  | refused
  | overrun
  deriving DecidableEq, Repr

/-- `CborEncoder`s of one message: the size of the buffer, what is in it, and for each open container,
innermost first, one more than the number of items that are still to come. -/
structure W where
  cap : Nat
  out : Bytes
  open' : List Nat
  deriving DecidableEq, Repr

/-- Big-endian bytes of the last `k` digits to the base 256. -/
def beBytes : Nat → Nat → Bytes
  | 0, _ => []
  | k + 1, n => beBytes k (n / 256) ++ [UInt8.ofNat n]

/-- An initial byte of major type `m` and the argument `n`, in the shortest form (tinycbor,
`encode_number_no_update`). -/
def head (m n : Nat) : Bytes :=
  if n < 24 then [UInt8.ofNat (m * 32 + n)]
  else if n < 2 ^ 8 then UInt8.ofNat (m * 32 + 24) :: beBytes 1 n
  else if n < 2 ^ 16 then UInt8.ofNat (m * 32 + 25) :: beBytes 2 n
  else if n < 2 ^ 32 then UInt8.ofNat (m * 32 + 26) :: beBytes 4 n
  else UInt8.ofNat (m * 32 + 27) :: beBytes 8 n

/-- `cbor_encode_int`. -/
def intHead (v : Int) : Bytes := if 0 ≤ v then head 0 v.toNat else head 1 (-1 - v).toNat

/-- Calls of the encoder. -/
inductive Tok where
  /-- `cbor_encode_int` -/
  | int (v : Int)
  /-- `cbor_encode_byte_string` -/
  | bytes (b : Bytes)
  /-- `cbor_encode_text_string`, `cbor_encode_text_stringz` -/
  | text (b : Bytes)
  /-- `cbor_encode_boolean` -/
  | bool (b : Bool)
  /-- `cbor_encoder_create_array` with this length -/
  | arr (n : Nat)
  /-- `cbor_encoder_create_map` with this length -/
  | map (n : Nat)
  /-- `cbor_encoder_close_container` -/
  | close
  /-- Go back one byte, write these bytes without a check, and then go to `len` bytes from there (`ctap.c:1459-1465,
  1846-1861`). -/
  | fill (b : Bytes) (len : Nat)
  /-- Go back one byte and write a byte string there: the contents first, then the head with a length of two bytes
  (`ctap.c:713-719`).  No check. -/
  | cert (b : Bytes)
  /-- Write a byte string: the head by way of `cbor_encode_uint`, then the contents without a check
  (`ctap.c:2041-2049`). -/
  | rawBytes (b : Bytes)
  deriving DecidableEq, Repr

/-- `append_to_buffer` of tinycbor. -/
def W.put (w : W) (b : Bytes) : Except Bad W :=
  if w.out.length + b.length ≤ w.cap then .ok { w with out := w.out ++ b } else .error .refused

/-- Writing to the buffer directly, at the current position. -/
def W.raw (w : W) (b : Bytes) : Except Bad W :=
  if w.out.length + b.length ≤ w.cap then .ok { w with out := w.out ++ b } else .error .overrun

/-- The current container got an item (`saturated_decrement` of tinycbor). -/
def W.count (w : W) : W :=
  { w with open' := match w.open' with
    | [] => []
    | n :: l => (n - 1) :: l }

/-- One call. -/
def W.step (w : W) : Tok → Except Bad W
  | .int v => (w.count).put (intHead v)
  | .bytes b => do
    let w ← (w.count).put (head 2 b.length)
    w.put b
  | .text b => do
    let w ← (w.count).put (head 3 b.length)
    w.put b
  | .bool b => (w.count).put [if b then 0xF5 else 0xF4]
  | .arr n => do
    let w ← (w.count).put (head 4 n)
    return { w with open' := (n + 1) :: w.open' }
  | .map n => do
    let w ← (w.count).put (head 5 n)
    return { w with open' := (2 * n + 1) :: w.open' }
  | .close =>
    match w.open' with
    | 1 :: l => .ok { w with open' := l }
    | _ => .error .refused
  | .fill b len => do
    let w' ← ({ w with out := w.out.dropLast } : W).raw b
    return { w' with out := w'.out.take (w.out.length - 1 + len) }
  | .cert b => do
    let w ← ({ w with out := w.out.dropLast } : W).raw (0x59 :: UInt8.ofNat (b.length / 256) :: UInt8.ofNat b.length :: b)
    return w
  | .rawBytes b => do
    let w ← (w.count).put (head 2 b.length)
    w.raw b

/-- A sequence of calls: the first error ends it. -/
def W.run (w : W) : List Tok → Except Bad W
  | [] => .ok w
  | t :: ts => do
    let w ← w.step t
    w.run ts

/-- Encoding into a buffer of `cap` bytes. -/
def write (cap : Nat) (ts : List Tok) : Except Bad Bytes := ((⟨cap, [], []⟩ : W).run ts).map (·.out)

/-- ASCII text. -/
def txt (s : String) : Tok := .text (Parse.str s)

/-- `cbor_encode_text_stringz`: up to the first zero. -/
def zText (b : Bytes) : Tok := .text (b.takeWhile (· != 0))

/-! ### What the commands use -/

/-- Functions of the crypto library, and what is configured. -/
structure Dev where
  /-- public key of a private key, for `alg` -/
  pub : UInt32 → Bytes → Bytes
  /-- signature with a private key, for `alg` -/
  sign : UInt32 → Bytes → Bytes → Bytes
  /-- `sign_with_device_key` of a message that is hashed first -/
  attest : Bytes → Bytes
  /-- the certificate in the file -/
  cert : Bytes
  sm2 : Sm2
  /-- `curve_id` of `CTAP_sm2_attr` -/
  curve : UInt32
  /-- what the file system returns when `get_pin_retries` fails -/
  err : Int

/-- An `int32_t`. -/
def sgn (v : UInt32) : Int := if v < 0x80000000 then v.toNat else (v.toNat : Int) - 4294967296




/-- The calls of `build_ecdsa_cose_key` (`ctap.c:126-161`). -/
def ecCalls (pub : Bytes) (algo curve : Int) : List Tok :=
  [.map 5, .int 1, .int 2, .int 3, .int algo, .int (-1), .int curve, .int (-2), .bytes (pub.take 32),
    .int (-3), .bytes ((pub.drop 32).take 32), .close]

/-- The calls of `build_ed25519_cose_key` (`ctap.c:163-192`). -/
def edCalls (pub : Bytes) : List Tok :=
  [.map 4, .int 1, .int 1, .int 3, .int (-8), .int (-1), .int 6, .int (-2), .bytes (pub.take 32), .close]

/-- What `build_ecdsa_cose_key` and `build_ed25519_cose_key` leave at `data`, and the length they return.  If the encoder
refuses an item they return the error code 0x12, which their callers take for the length. -/
def cose (cap : Nat) (calls : List Tok) (data : Bytes) : Bytes × Nat :=
  match write cap calls with
  | .ok b => (b ++ data.drop b.length, b.length)
  | .error _ => (data, 0x12)

def ecCose (pub : Bytes) (algo curve : Int) : Bytes × Nat := cose 80 (ecCalls pub algo curve) pub
def edCose (pub : Bytes) : Bytes × Nat := cose 50 (edCalls pub) pub

/-- The key that `ctap_make_auth_data` puts in (`ctap.c:284-297`). -/
def attKey (d : Dev) (alg : UInt32) (pri : Bytes) : Bytes × Nat :=
  let pub := d.pub alg pri
  if alg = ES256 then ecCose pub (-7) 1
  else if alg = EDDSA then edCose pub
  else ecCose pub (sgn d.sm2.algo) (sgn d.curve)

/-- `aaguid` (`ctap.c:55-56`). -/
def aaguid : Bytes :=
  [0x24, 0x4e, 0xb2, 0x9e, 0xe0, 0x90, 0x4e, 0x49, 0x81, 0xfe, 0x1f, 0x20, 0xf8, 0xd3, 0xb8, 0xf4]

/-- Big-endian counter. -/
def be32 (v : UInt32) : Bytes := [(v >>> 24).toUInt8, (v >>> 16).toUInt8, (v >>> 8).toUInt8, v.toUInt8]

/-- Authenticator data (`ctap.c:238-308`, `ctap-internal.h:272-283`).  `pri` is the private key of the attested
credential. -/
def authData (d : Dev) (a : AuthData) (pri ext : Bytes) : Bytes :=
  a.rp ++ a.flags :: be32 a.ctr ++
    (match a.att with
     | none => []
     | some cid => aaguid ++ [0, 70] ++ cid ++ (attKey d (Cid.alg cid) pri).1.take (attKey d (Cid.alg cid) pri).2) ++
    (if a.flags &&& 0x80 != 0 then ext else [])

/-! ### The commands -/

/-- Items that are written under a condition. -/
def cond (c : Bool) (l : List Tok) : List Tok := if c then l else []

/-- Extension outputs of `ctap_make_credential` (`ctap.c:518-553`): a buffer of 140 bytes. -/
def mcExtCalls (r : McResp) : List Tok :=
  [.map ((if r.hmacSecret then 1 else 0) + (if r.protect.isSome then 1 else 0) + (if r.blobOk.isSome then 1 else 0))] ++
  cond r.blobOk.isSome [txt "credBlob", .bool (r.blobOk.getD false)] ++
  cond r.protect.isSome [txt "credProtect", .int (r.protect.getD 0).toNat] ++
  cond r.hmacSecret [txt "hmac-secret", .bool true] ++ [.close]

/-- Are there any (`ctap.c:523`)? -/
def mcHasExt (r : McResp) : Bool := r.hmacSecret || r.protect.isSome || r.blobOk.isSome

/-- Extension outputs of `ctap_get_assertion` (`ctap.c:1034-1106`). -/
def gaExtCalls (r : GaResp) : List Tok :=
  [.map ((if r.blob.isSome then 1 else 0) + (if r.hmacSecret.isSome then 1 else 0))] ++
  cond r.blob.isSome [txt "credBlob", .bytes (r.blob.getD [])] ++
  cond r.hmacSecret.isSome [txt "hmac-secret", .bytes (r.hmacSecret.getD [])] ++ [.close]

def gaHasExt (r : GaResp) : Bool := r.blob.isSome || r.hmacSecret.isSome

/-- The response of `ctap_make_credential` (`ctap.c:564-752`); `ext` are the extension outputs and `pri` is the new
private key. -/
def mcCalls (d : Dev) (r : McResp) (pri ext : Bytes) : List Tok :=
  let ad := authData d r.ad pri ext
  [.map (3 + (if r.lbk.isSome then 1 else 0)),
    .int 1, txt "packed",
    .int 2, .bytes ad,
    .int 3, .map 3,
      txt "alg", .int (-7),
      txt "sig", .bytes (d.attest (ad ++ r.cdh)),
      txt "x5c", .arr 1, .bytes [], .cert (d.cert.take 1152), .close,
    .close] ++
  cond r.lbk.isSome [.int 5, .bytes (r.lbk.getD [])] ++
  [.close]

/-- The response of `ctap_get_assertion` (`ctap.c:1108-1216`). -/
def gaCalls (d : Dev) (r : GaResp) (ext : Bytes) : List Tok :=
  let ad := authData d r.ad [] ext
  [.map (3 + (if r.userId.isSome then 1 else 0) + (if r.count.isSome then 1 else 0) + (if r.lbk.isSome then 1 else 0)),
    .int 1, .map 2, txt "id", .bytes r.cid, txt "type", txt "public-key", .close,
    .int 2, .bytes ad,
    .int 3, .bytes (d.sign r.alg r.key (ad ++ r.cdh))] ++
  cond r.userId.isSome (
    [.int 4, .map (if r.userInfo.isSome then 3 else 1), txt "id", .bytes (r.userId.getD [])] ++
    cond r.userInfo.isSome [txt "name", zText (r.userInfo.getD ([], [])).1,
      txt "displayName", zText (r.userInfo.getD ([], [])).2] ++
    [.close]) ++
  cond r.count.isSome [.int 5, .int (r.count.getD 0)] ++
  cond r.lbk.isSome [.int 7, .bytes (r.lbk.getD [])] ++
  [.close]

/-- An entry of the list of algorithms (`ctap.c:1358-1400`). -/
def algCalls (v : Int) : List Tok := [.map 2, txt "alg", .int v, txt "type", txt "public-key", .close]

/-- `ctap_get_info` (`ctap.c:1224-1418`). -/
def infoCalls (d : Dev) (pin : Bool) : List Tok :=
  [.map 13,
    .int 0x01, .arr 3, txt "U2F_V2", txt "FIDO_2_0", txt "FIDO_2_1", .close,
    .int 0x02, .arr 4, txt "credBlob", txt "credProtect", txt "hmac-secret", txt "largeBlobKey", .close,
    .int 0x03, .bytes aaguid,
    .int 0x04, .map 6, txt "rk", .bool true, txt "credMgmt", .bool true, txt "clientPin", .bool pin,
      txt "largeBlobs", .bool true, txt "pinUvAuthToken", .bool true, txt "makeCredUvNotRqd", .bool true, .close,
    .int 0x05, .int 1300,
    .int 0x06, .arr 2, .int 1, .int 2, .close,
    .int 0x07, .int 8,
    .int 0x08, .int 70,
    .int 0x09, .arr 2, txt "nfc", txt "usb", .close,
    .int 0x0A, .arr (if d.sm2.enabled then 3 else 2)] ++
  algCalls (-7) ++ algCalls (-8) ++ cond d.sm2.enabled (algCalls (sgn d.sm2.algo)) ++
  [.close,
    .int 0x0B, .int 4096,
    .int 0x0E, .int 201,
    .int 0x0F, .int 32,
    .close]

/-- `CP_CMD_GET_PIN_RETRIES` (`ctap.c:1440-1450`). -/
def retriesCalls (d : Dev) (n : Option Byte) : List Tok :=
  [.map 1, .int 3, .int (match n with
    | some n => n.toNat
    | none => d.err), .close]

/-- `CP_CMD_GET_KEY_AGREEMENT` (`ctap.c:1452-1469`): the key is first written as an empty map, then in place. -/
def keyCalls (pub : Bytes) : List Tok :=
  let k := ecCose pub (-25) 1
  [.map 1, .int 1, .map 0, .fill k.1 k.2, .close, .close]

/-- `CP_CMD_GET_PIN_TOKEN` (`ctap.c:1612-1619`). -/
def tokenCalls (enc : Bytes) : List Tok := [.map 1, .int 2, .bytes enc, .close]

/-- `CM_CMD_GET_CREDS_METADATA` (`ctap.c:1684-1698`). -/
def metaCalls (n : Nat) (left : Int) : List Tok := [.map 2, .int 1, .int n, .int 2, .int left, .close]

/-- `CM_CMD_ENUMERATE_RPS_BEGIN` and `_GET_NEXT_RP` (`ctap.c:1718-1738,1758-1774`). -/
def rpCalls (rpId hash : Bytes) (total : Option Nat) : List Tok :=
  [.map (if total.isSome then 3 else 2),
    .int 3, .map 1, txt "id", .text rpId, .close,
    .int 4, .bytes hash] ++
  cond total.isSome [.int 5, .int (total.getD 0)] ++ [.close]

/-- The key of a credential in an enumeration (`ctap.c:1851-1861`): one of SM2 is copied, but neither encoded nor
skipped. -/
def cmKey (d : Dev) (alg : UInt32) (pri : Bytes) : Bytes × Nat :=
  let pub := d.pub alg pri
  if alg = ES256 then ecCose pub (-7) 1
  else if alg = EDDSA then edCose pub
  else (pub, 1)

/-- `generate_credential_response` (`ctap.c:1804-1884`). -/
def credCalls (d : Dev) (c : CmCred) : List Tok :=
  let k := cmKey d (Cid.alg c.cid) c.pri
  [.map (4 + (if c.total.isSome then 1 else 0) + (if c.lbk.isSome then 1 else 0)),
    .int 6, .map 3, txt "id", .bytes c.user.id, txt "name", zText c.user.name, txt "displayName", zText c.user.disp, .close,
    .int 7, .map 2, txt "id", .bytes c.cid, txt "type", txt "public-key", .close,
    .int 8, .map 0, .fill k.1 k.2, .close] ++
  cond c.total.isSome [.int 9, .int (c.total.getD 0)] ++
  [.int 10, .int c.protect.toNat] ++
  cond c.lbk.isSome [.int 11, .bytes (c.lbk.getD [])] ++
  [.close]

/-- `ctap_large_blobs`, reading (`ctap.c:2036-2051`). -/
def configCalls (b : Bytes) : List Tok := [.map 1, .int 1, .rawBytes b, .close]

/-- The calls for a response.  `pri` is the private key of a new credential. -/
def calls (d : Dev) (pri : Bytes) : Resp → Except Bad (List Tok)
  | .empty => .ok []
  | .mc r => do
    let ext ← if mcHasExt r then write 140 (mcExtCalls r) else .ok []
    return mcCalls d r pri ext
  | .ga r => do
    let ext ← if gaHasExt r then write 140 (gaExtCalls r) else .ok []
    return gaCalls d r ext
  | .info pin => .ok (infoCalls d pin)
  | .retries n => .ok (retriesCalls d n)
  | .keyAgreement pub => .ok (keyCalls pub)
  | .token enc => .ok (tokenCalls enc)
  | .credsMeta n left => .ok (metaCalls n left)
  | .rp id hash total => .ok (rpCalls id hash total)
  | .cred c => .ok (credCalls d c)
  | .config b => .ok (configCalls b)

/-- The response message: `ctap_process_cbor` with a buffer of `cap` bytes (`ctap.c:2166-2167`, `SET_RESP`
`ctap.c:31-37`).  `none`: the device wrote past the end of the buffer. -/
def message (cap : Nat) (d : Dev) (pri : Bytes) (r : Resp) : Option Bytes :=
  match (do let ts ← calls d pri r; write (cap - 1) ts) with
  | .ok b => some (0 :: b)
  | .error .refused => some [0x12]
  | .error .overrun => none

end Verif.Ctap.Enc
