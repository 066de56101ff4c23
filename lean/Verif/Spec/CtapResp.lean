import Verif.Spec.Cbor
import Verif.Model.CtapEnc
/-
What the messages of the FIDO applet must say (CTAP 2.1, section 6; WebAuthn, sections 6.1 and 6.5): for
each response of a command, the CBOR item that a host must find in the message.
-/
namespace Verif.Spec.Resp
open Verif.Ctap
open Verif.Spec.Cbor (Val Decodes be str)
open Verif.Ctap.Enc (Dev)

/-- Text. -/
def T (s : String) : Val := .text (str s)

/-- An entry that may be missing. -/
def field (k : Val) : Option Val → List (Val × Val)
  | none => []
  | some v => [(k, v)]

/-- An elliptic-curve key (RFC 9053, section 7.1.1). -/
def coseEc (alg curve : Int) (pub : Bytes) : Val :=
  .map [(.int 1, .int 2), (.int 3, .int alg), (.int (-1), .int curve), (.int (-2), .bytes (pub.take 32)),
    (.int (-3), .bytes (pub.drop 32))]

/-- An Ed25519 key (RFC 9053, section 7.2). -/
def coseOkp (pub : Bytes) : Val :=
  .map [(.int 1, .int 1), (.int 3, .int (-8)), (.int (-1), .int 6), (.int (-2), .bytes pub)]

/-- The number that a 32-bit pattern stands for in two's complement. -/
def signed (v : UInt32) : Int := if v.toNat < 2 ^ 31 then v.toNat else (v.toNat : Int) - 2 ^ 32

/-- The public key of a credential: ES256, EdDSA, or what is configured for SM2. -/
def coseKey (d : Dev) (alg : UInt32) (pub : Bytes) : Val :=
  if signed alg = -7 then coseEc (-7) 1 pub
  else if signed alg = -8 then coseOkp pub
  else coseEc (signed d.sm2.algo) (signed d.curve) pub

/-- The identifier of the authenticator model. -/
def modelId : Bytes := [0x24, 0x4e, 0xb2, 0x9e, 0xe0, 0x90, 0x4e, 0x49, 0x81, 0xfe, 0x1f, 0x20, 0xf8, 0xd3, 0xb8, 0xf4]

/-- Authenticator data (WebAuthn, section 6.1): the hash of the relying party, flags and a counter, then, as the flags
say, the attested credential (its identifier and public key) and the outputs of extensions. -/
def IsAuthData (b rp : Bytes) (flags : Byte) (ctr : UInt32) (att : Option (Bytes × Val)) (ext : Option Val) : Prop :=
  ∃ c4 A E, b = rp ++ [flags] ++ c4 ++ A ++ E ∧ rp.length = 32 ∧ c4.length = 4 ∧ be c4 = ctr.toNat ∧
    (flags.toNat.testBit 6 = att.isSome) ∧ (flags.toNat.testBit 7 = ext.isSome) ∧
    (match att with
     | none => A = []
     | some (cid, key) => ∃ l K, A = modelId ++ l ++ cid ++ K ∧ l.length = 2 ∧ be l = cid.length ∧ Decodes K key) ∧
    (match ext with
     | none => E = []
     | some v => Decodes E v)

/-- A map, unless it would be empty. -/
def unlessEmpty (l : List (Val × Val)) : Option Val := if l.isEmpty then none else some (.map l)

/-- Extension outputs of a registration. -/
def mcOut (r : McResp) : Option Val :=
  unlessEmpty (field (T "credBlob") (r.blobOk.map .bool) ++ field (T "credProtect") (r.protect.map fun p => .int p.toNat) ++
    field (T "hmac-secret") (if r.hmacSecret then some (.bool true) else none))

/-- Extension outputs of an assertion. -/
def gaOut (r : GaResp) : Option Val :=
  unlessEmpty (field (T "credBlob") (r.blob.map .bytes) ++ field (T "hmac-secret") (r.hmacSecret.map .bytes))

/-- A registration: packed attestation with one certificate. -/
def mcVal (ad sig cert : Bytes) (lbk : Option Bytes) : Val :=
  .map ([(.int 1, T "packed"), (.int 2, .bytes ad),
    (.int 3, .map [(T "alg", .int (-7)), (T "sig", .bytes sig), (T "x5c", .arr [.bytes cert])])] ++
    field (.int 5) (lbk.map .bytes))

/-- A credential descriptor. -/
def descr (cid : Bytes) : Val := .map [(T "id", .bytes cid), (T "type", T "public-key")]

/-- A user. -/
def userVal (id : Bytes) (info : Option (Bytes × Bytes)) : Val :=
  .map ([(T "id", .bytes id)] ++ field (T "name") (info.map fun p => .text p.1) ++
    field (T "displayName") (info.map fun p => .text p.2))

/-- An assertion. -/
def gaVal (r : GaResp) (ad sig : Bytes) : Val :=
  .map ([(.int 1, descr r.cid), (.int 2, .bytes ad), (.int 3, .bytes sig)] ++
    field (.int 4) (r.userId.map fun id => userVal id r.userInfo) ++
    field (.int 5) (r.count.map fun (n : Nat) => .int n) ++ field (.int 7) (r.lbk.map .bytes))

/-- An entry of the list of algorithms. -/
def algVal (v : Int) : Val := .map [(T "alg", .int v), (T "type", T "public-key")]

/-- authenticatorGetInfo. -/
def infoVal (d : Dev) (pin : Bool) : Val :=
  .map [(.int 1, .arr [T "U2F_V2", T "FIDO_2_0", T "FIDO_2_1"]),
    (.int 2, .arr [T "credBlob", T "credProtect", T "hmac-secret", T "largeBlobKey"]),
    (.int 3, .bytes modelId),
    (.int 4, .map [(T "rk", .bool true), (T "credMgmt", .bool true), (T "clientPin", .bool pin), (T "largeBlobs", .bool true),
      (T "pinUvAuthToken", .bool true), (T "makeCredUvNotRqd", .bool true)]),
    (.int 5, .int 1300),
    (.int 6, .arr [.int 1, .int 2]),
    (.int 7, .int 8),
    (.int 8, .int 70),
    (.int 9, .arr [T "nfc", T "usb"]),
    (.int 10, .arr ([algVal (-7), algVal (-8)] ++ if d.sm2.enabled then [algVal (signed d.sm2.algo)] else [])),
    (.int 11, .int 4096),
    (.int 14, .int 201),
    (.int 15, .int 32)]

/-- The message body that a host must get for a response. -/
def Says (d : Dev) (pri : Bytes) (r : Resp) (b : Bytes) : Prop :=
  match r with
  | .empty => b = []
  | .mc r => ∃ ad, Decodes b (mcVal ad (d.attest (ad ++ r.cdh)) d.cert r.lbk) ∧
      IsAuthData ad r.ad.rp r.ad.flags r.ad.ctr
        (r.ad.att.map fun cid => (cid, coseKey d (Cid.alg cid) (d.pub (Cid.alg cid) pri))) (mcOut r)
  | .ga r => ∃ ad, Decodes b (gaVal r ad (d.sign r.alg r.key (ad ++ r.cdh))) ∧
      IsAuthData ad r.ad.rp r.ad.flags r.ad.ctr none (gaOut r)
  | .info pin => Decodes b (infoVal d pin)
  | .retries n => Decodes b (.map [(.int 3, .int (match n with
      | some n => n.toNat
      | none => d.err))])
  | .keyAgreement pub => Decodes b (.map [(.int 1, coseEc (-25) 1 pub)])
  | .token enc => Decodes b (.map [(.int 2, .bytes enc)])
  | .credsMeta n left => Decodes b (.map [(.int 1, .int n), (.int 2, .int left)])
  | .rp id hash total => Decodes b (.map ([(.int 3, .map [(T "id", .text id)]), (.int 4, .bytes hash)] ++
      field (.int 5) (total.map fun (n : Nat) => .int n)))
  | .cred c => Decodes b (.map ([(.int 6, userVal c.user.id (some (c.user.name, c.user.disp))), (.int 7, descr c.cid),
      (.int 8, coseKey d (Cid.alg c.cid) (d.pub (Cid.alg c.cid) c.pri))] ++ field (.int 9) (c.total.map fun (n : Nat) => .int n) ++
      [(.int 10, .int c.protect.toNat)] ++ field (.int 11) (c.lbk.map .bytes)))
  | .config b' => Decodes b (.map [(.int 1, .bytes b')])

/-! ### Sizes -/

/-- The number of bytes of an integer in CBOR. -/
def intSize (v : Int) : Nat :=
  let n := if 0 ≤ v then v.toNat else (-1 - v).toNat
  if n < 24 then 1 else if n < 256 then 2 else if n < 65536 then 3 else 5

/-- What is known of the crypto library: lengths of keys and of (DER-encoded) signatures. -/
structure Lib (d : Dev) : Prop where
  ed : ∀ k, (d.pub EDDSA k).length = 32
  ec : ∀ a k, a ≠ EDDSA → (d.pub a k).length = 64
  sig : ∀ a k m, (d.sign a k m).length ≤ 72
  att : ∀ m, (d.attest m).length ≤ 72
  err : -2 ^ 31 ≤ d.err ∧ d.err < 2 ^ 31

/-- The sizes of the parts of a response. -/
def Sized (r : Resp) : Prop :=
  match r with
  | .empty => True
  | .mc r => r.ad.rp.length = 32 ∧ (∃ cid, r.ad.att = some cid ∧ cid.length = 70) ∧
      r.ad.flags.toNat.testBit 6 = true ∧ r.ad.flags.toNat.testBit 7 = (mcOut r).isSome ∧
      (∀ k, r.lbk = some k → k.length = 32)
  | .ga r => r.ad.rp.length = 32 ∧ r.ad.att = none ∧ r.cid.length = 70 ∧
      r.ad.flags.toNat.testBit 6 = false ∧ r.ad.flags.toNat.testBit 7 = (gaOut r).isSome ∧
      (∀ k, r.lbk = some k → k.length = 32) ∧ (∀ b, r.blob = some b → b.length ≤ 32) ∧
      (∀ b, r.hmacSecret = some b → b.length ≤ 80) ∧ (∀ b, r.userId = some b → b.length ≤ 64) ∧
      (∀ p, r.userInfo = some p → p.1.length ≤ 64 ∧ p.2.length ≤ 64 ∧ 0 ∉ p.1 ∧ 0 ∉ p.2 ∧ r.userId.isSome) ∧
      (∀ n, r.count = some n → n ≤ 64)
  | .info _ => True
  | .retries _ => True
  | .keyAgreement pub => pub.length = 64
  | .token enc => enc.length ≤ 48
  | .credsMeta n left => n < 256 ∧ -256 < left ∧ left ≤ 64
  | .rp id hash total => id.length ≤ 32 ∧ hash.length = 32 ∧ ∀ n, total = some n → n < 2 ^ 32
  | .cred c => c.cid.length = 70 ∧ c.user.id.length ≤ 64 ∧ c.user.name.length ≤ 64 ∧ c.user.disp.length ≤ 64 ∧
      0 ∉ c.user.name ∧ 0 ∉ c.user.disp ∧ (∀ n, c.total = some n → n ≤ 64) ∧ (∀ k, c.lbk = some k → k.length = 32)
  | .config b => b.length ≤ 1236

end Verif.Spec.Resp
