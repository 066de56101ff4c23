import Verif.Model.CtapCmd
/-
The parsers of CTAP requests (`/repo/applets/ctap/ctap-parser.c`).

A request is a tree of CBOR items; the decoding of bytes is tinycbor's, which is not in the repository and is
not modelled.  `Cbor.bad` stands for a place where the encoding is malformed or ends; which of the error statuses
is returned for it is not modelled exactly.  Strings and containers of indefinite length are refused by the
length functions (`CborErrorUnknownLength`) and count as `bad`.
-/
namespace Verif.Ctap.Parse

/-- An item of CBOR. -/
inductive Cbor where
  | int (v : Int)
  | bytes (b : Bytes)
  | text (b : Bytes)
  | arr (l : List Cbor)
  | map (l : List (Cbor × Cbor))
  | bool (b : Bool)
  /-- null, undefined, floats, tags -/
  | other
  | bad

mutual
/-- The item is well-formed to the end. -/
def Cbor.wf : Cbor → Bool
  | .arr l => wfAll l
  | .map l => wfEntries l
  | .bad => false
  | _ => true
def wfAll : List Cbor → Bool
  | [] => true
  | c :: l => c.wf && wfAll l
def wfEntries : List (Cbor × Cbor) → Bool
  | [] => true
  | e :: l => wfEntry e && wfEntries l
def wfEntry : Cbor × Cbor → Bool
  | (k, v) => k.wf && v.wf
end

/-- A parser: a value, a status, or undefined behaviour. -/
abbrev P := Except Err

def refuse {α : Type} (c : Byte) : P α := .error (.code c)
def refuseIf (b : Bool) (c : Byte) : P Unit := if b then refuse c else pure ()

/-- `cbor_value_advance`. -/
def advance (c : Cbor) : P Unit := refuseIf (!c.wf) Code.invalidCbor

/-- `cbor_value_get_int_checked` after a check of the type. -/
def intOf : Cbor → P Int
  | .int v => if -2147483648 ≤ v && v < 2147483648 then pure v else refuse Code.invalidCbor
  | _ => refuse Code.unexpectedType

def bytesOf : Cbor → P Bytes
  | .bytes b => pure b
  | _ => refuse Code.unexpectedType

def textOf : Cbor → P Bytes
  | .text b => pure b
  | _ => refuse Code.unexpectedType

def boolOf : Cbor → P Bool
  | .bool b => pure b
  | _ => refuse Code.unexpectedType

def entriesOf : Cbor → P (List (Cbor × Cbor))
  | .map l => pure l
  | _ => refuse Code.unexpectedType

def elementsOf : Cbor → P (List Cbor)
  | .arr l => pure l
  | _ => refuse Code.unexpectedType

/-- `cbor_value_copy_byte_string` and `cbor_value_copy_text_string` into an object of `cap` bytes when the
caller says that there are `lim`: `oom` is what the caller returns for `CborErrorOutOfMemory`. A zero is put after the
string if it is shorter than `lim`. -/
def copyIn (cap lim : Nat) (b : Bytes) (oom : Byte) : P Bytes :=
  if b.length > lim then refuse oom
  else if (if b.length < lim then b.length + 1 else b.length) > cap then .error (.ub .oob)
  else pure b

/-- `object[n] = 0` for an object of `cap` bytes. -/
def poke (cap n : Nat) : P Unit := if n ≥ cap then .error (.ub .oob) else pure ()

/-- A C string in a buffer. -/
def cstr (b : Bytes) : Bytes := b.takeWhile (· != 0)

/-- What is in a buffer after a copy without terminating zero. -/
def put (buf b : Bytes) : Bytes := b ++ buf.drop b.length
/-- … and with one, if there is room. -/
def put0 (buf b : Bytes) : Bytes := (b ++ 0 :: buf.drop (b.length + 1)).take buf.length

def zeros (n : Nat) : Bytes := List.replicate n 0

/-- ASCII. -/
def str (s : String) : Bytes := s.toList.map fun c => UInt8.ofNat c.toNat

/-- The loop over the entries of a map whose keys are integers. -/
def eachInt {σ : Type} (body : Int → Cbor → σ → P σ) : List (Cbor × Cbor) → σ → P σ
  | [], s => pure s
  | (k, v) :: l, s => do
    let key ← intOf k
    let s ← body key v s
    advance v
    eachInt body l s

/-- The loop over the entries of a map whose keys are texts, copied to a buffer of `n` bytes. -/
def eachText {σ : Type} (n : Nat) (body : Bytes → Cbor → σ → P σ) : List (Cbor × Cbor) → σ → P σ
  | [], s => pure s
  | (k, v) :: l, s => do
    let t ← textOf k
    let t ← copyIn n n t Code.limitExceeded
    let s ← body (cstr t) v s
    advance v
    eachText n body l s

/-- `cbor_value_map_find_value`. -/
def findIn (name : Bytes) : List (Cbor × Cbor) → P (Option Cbor)
  | [] => pure none
  | (.text t, v) :: l => if t == name then pure (some v) else do advance v; findIn name l
  | (k, v) :: l => do advance k; advance v; findIn name l

/-! ### Parts of requests -/

/-- `maybe_truncate_rpid` (`ctap-parser.c:22-53`), as the `stored_len` bytes that are stored. -/
def truncRpId (d : Bytes) : Bytes :=
  if d.length ≤ 32 then d
  else
    let proto := if d.contains 0x3A then (d.takeWhile (· != 0x3A)).length + 1 else 0
    let used := if proto ≤ 32 then proto else 32
    if 32 - used < 3 then d.take used
    else d.take used ++ [0xE2, 0x80, 0xA6] ++ d.drop (d.length - (32 - used - 3))

/-- `parse_rp` (`ctap-parser.c:55-92`): hash and stored identifier, as they were if there is no identifier. -/
def parseRp (x : Ext) (v : Cbor) (s : Bytes × Bytes) : P (Bytes × Bytes) := do
  let l ← entriesOf v
  eachText 4 (fun key v s => do
    let t ← textOf v
    if key == str "id" then do
      let d ← copyIn 255 254 t Code.invalidCbor
      poke 255 d.length
      return (x.sha d, truncRpId d)
    else return s) l s

/-- `parse_user` (`ctap-parser.c:94-148`). -/
def parseUser (v : Cbor) (u : User) : P User := do
  let l ← entriesOf v
  eachText 12 (fun key v u => do
    if key == str "id" then do
      let b ← bytesOf v
      let b ← copyIn 64 64 b Code.limitExceeded
      return { u with id := b }
    else if key == str "displayName" then do
      let t ← textOf v
      let t ← copyIn 65 64 t Code.invalidCbor
      poke 65 t.length
      return { u with disp := cstr t }
    else if key == str "name" then do
      let t ← textOf v
      let t ← copyIn 65 64 t Code.invalidCbor
      poke 65 t.length
      return { u with name := cstr t }
    else if key == str "icon" then do
      let _ ← textOf v
      return u
    else return u) l u

/-- `int32_t` in two's complement. -/
def i32 (v : Int) : UInt32 := UInt32.ofNat (v % 4294967296).toNat
/-- Assignment to a `uint8_t`. -/
def u8 (v : Int) : Byte := UInt8.ofNat (v % 256).toNat

/-- `parse_pub_key_cred_param` (`ctap-parser.c:150-173`). -/
def parseParam (v : Cbor) : P UInt32 := do
  let l ← entriesOf v
  let cred ← findIn (str "type") l
  let alg ← findIn (str "alg") l
  match cred, alg with
  | some (.text t), some (.int a) => do
    refuseIf (t != str "public-key") Code.unsupportedAlgorithm
    let a ← intOf (.int a)
    return i32 a
  | _, _ => refuse Code.missingParameter

/-- The loop of `parse_verify_pub_key_cred_params` (`ctap-parser.c:189-207`): `chosen` is the algorithm that was
chosen, if any. -/
def paramsLoop (sm2 : Sm2) : List Cbor → Option UInt32 → P (Option UInt32)
  | [], chosen => pure chosen
  | v :: l, chosen => do
    let a ← parseParam v
    let chosen := if algOk sm2 a then chosen.or (some a) else chosen
    advance v
    paramsLoop sm2 l chosen

/-- `parse_verify_pub_key_cred_params` (`ctap-parser.c:175-211`). -/
def parseParams (sm2 : Sm2) (v : Cbor) : P UInt32 := do
  let l ← elementsOf v
  match ← paramsLoop sm2 l none with
  | none => refuse Code.unsupportedAlgorithm
  | some a => return a

/-- `parse_credential_descriptor` (`ctap-parser.c:213-231`) without destination: gives the identifier, which has not been
copied. -/
def parseDescriptor (v : Cbor) : P Bytes := do
  let l ← entriesOf v
  match ← findIn (str "id") l with
  | some (.bytes b) => do
    match ← findIn (str "type") l with
    | some (.text _) => return b
    | _ => refuse Code.missingParameter
  | _ => refuse Code.missingParameter

/-- `parse_public_key_credential_list` (`ctap-parser.c:233-251`). -/
def parseList (v : Cbor) : P (List Bytes) := do
  let l ← elementsOf v
  l.mapM fun v => do
    let b ← parseDescriptor v
    advance v
    return b

/-- `up`, `uv` and `rk`. -/
structure Options where
  up : Opt
  uv : Opt
  rk : Opt
  deriving DecidableEq, Repr

def optOf (b : Bool) : Opt := if b then .yes else .no

/-- `parse_options` (`ctap-parser.c:253-300`): keys that have not two bytes are skipped. -/
def parseOptions (v : Cbor) (o : Options) : P Options := do
  let l ← entriesOf v
  l.foldlM (fun o (k, v) => do
    let t ← textOf k
    let b ← boolOf v
    advance v
    if t == str "rk" then return { o with rk := optOf b }
    else if t == str "uv" then return { o with uv := optOf b }
    else if t == str "up" then return { o with up := optOf b }
    else return o) o

/-- `parse_cose_key` (`ctap-parser.c:302-371`): the buffer and `parsed_keys`. -/
def parseCoseKey (v : Cbor) (key : Bytes) : P Bytes := do
  let l ← entriesOf v
  let (key, n) ← eachInt (fun k v (s : Bytes × Nat) => do
    if k == 3 then do
      let a ← intOf v
      refuseIf (a != -25) Code.unhandled
      return (s.1, s.2 + 1)
    else if k == 1 then do
      let a ← intOf v
      refuseIf (a != 2) Code.unhandled
      return (s.1, s.2 + 1)
    else if k == -1 then do
      let a ← intOf v
      refuseIf (a != 1) Code.unhandled
      return (s.1, s.2 + 1)
    else if k == -2 then do
      let b ← bytesOf v
      let b ← copyIn 64 32 b Code.invalidCbor
      refuseIf (b.length != 32) Code.unhandled
      return (b ++ s.1.drop 32, s.2 + 1)
    else if k == -3 then do
      let b ← bytesOf v
      let b ← copyIn 32 32 b Code.invalidCbor
      refuseIf (b.length != 32) Code.unhandled
      return (s.1.take 32 ++ b, s.2 + 1)
    else return s) l (key, 0)
  -- `parsed_keys` is a `uint8_t`
  refuseIf (n % 256 < 4) Code.missingParameter
  return key

/-! ### authenticatorMakeCredential -/

/-- `CTAP_make_credential` while it is parsed; `seen` are the bits of `parsed_params` that are looked at. -/
structure McS where
  q : McReq
  seen : Bool × Bool × Bool × Bool
  /-- `pin_uv_auth_param` -/
  authBuf : Bytes

/-- `parse_mc_extensions` (`ctap-parser.c:373-434`). -/
def parseMcExt (v : Cbor) (q : McReq) : P McReq := do
  let l ← entriesOf v
  eachText 13 (fun key v q => do
    if key == str "credProtect" then do
      let a ← intOf v
      refuseIf (a < 1 || a > 3) Code.invalidOption
      return { q with protect := u8 a }
    else if key == str "credBlob" then do
      let b ← bytesOf v
      -- too long a value is marked, not refused
      if b.length > 32 then return { q with credBlob := some b }
      else do
        let b ← copyIn 32 32 b Code.invalidCbor
        return { q with credBlob := some b }
    else if key == str "largeBlobKey" then do
      let b ← boolOf v
      refuseIf (!b) Code.invalidOption
      return { q with lbk := b }
    else if key == str "hmac-secret" then do
      let b ← boolOf v
      return { q with hmacSecret := b }
    else return q) l q

/-- A protocol number, which must be 1 or 2. -/
def protoOf (v : Cbor) : P Nat := do
  let a ← intOf v
  refuseIf (a != 1 && a != 2) Code.invalidParameter
  return a.toNat

/-- pinUvAuthParam of makeCredential and getAssertion: the parameter as `verifyMac` sees it, and the buffer. -/
def authOf (v : Cbor) (buf : Bytes) : P (Bytes × Bytes) := do
  let b ← bytesOf v
  refuseIf (b.length > 32) Code.pinAuthInvalid
  if b.length > 0 then do
    let b ← copyIn 32 b.length b Code.invalidCbor
    return (put buf b, put buf b)
  else return ([], buf)

/-- One entry of a makeCredential request (`ctap-parser.c:654-755`). -/
def mcEntry (x : Ext) (sm2 : Sm2) (key : Int) (v : Cbor) (s : McS) : P McS := do
  if key == 1 then do
    let b ← bytesOf v
    let b ← copyIn 32 32 b Code.invalidCbor
    refuseIf (b.length != 32) Code.invalidCbor
    return { s with q := { s.q with cdh := b }, seen := (true, s.seen.2) }
  else if key == 2 then do
    let rp ← parseRp x v (s.q.rpHash, s.q.rpId)
    return { s with q := { s.q with rpHash := rp.1, rpId := rp.2 }, seen := (s.seen.1, true, s.seen.2.2) }
  else if key == 3 then do
    let u ← parseUser v s.q.user
    return { s with q := { s.q with user := u }, seen := (s.seen.1, s.seen.2.1, true, s.seen.2.2.2) }
  else if key == 4 then do
    let a ← parseParams sm2 v
    return { s with q := { s.q with alg := a }, seen := (s.seen.1, s.seen.2.1, s.seen.2.2.1, true) }
  else if key == 5 then do
    let l ← parseList v
    return { s with q := { s.q with exclude := l } }
  else if key == 6 then do
    let q ← parseMcExt v s.q
    return { s with q := q }
  else if key == 7 then do
    let o ← parseOptions v ⟨s.q.up, s.q.uv, s.q.rk⟩
    return { s with q := { s.q with up := o.up, uv := o.uv, rk := o.rk } }
  else if key == 8 then do
    let (a, buf) ← authOf v s.authBuf
    return { s with q := { s.q with pinAuth := some a }, authBuf := buf }
  else if key == 9 then do
    let p ← protoOf v
    return { s with q := { s.q with proto := some p } }
  else return s

/-- The zeroed structure (`ctap-parser.c:636-641`). -/
def mcInit : McS :=
  { q := { cdh := zeros 32, rpHash := zeros 32, rpId := [], user := ⟨[], [], []⟩, alg := 0, exclude := [], rk := .absent,
           uv := .absent, up := .absent, pinAuth := none, proto := none, hmacSecret := false, protect := 0,
           credBlob := none, lbk := false },
    seen := (false, false, false, false), authBuf := zeros 32 }

/-- `parse_make_credential` (`ctap-parser.c:632-764`). -/
def parseMc (x : Ext) (sm2 : Sm2) (v : Cbor) : P McReq := do
  let l ← entriesOf v
  let s ← eachInt (mcEntry x sm2) l mcInit
  refuseIf (s.seen != (true, true, true, true)) Code.missingParameter
  return s.q

/-! ### authenticatorGetAssertion -/

/-- The hmac-secret input while it is parsed; `seen` is `map_has_entry`. -/
structure HsS where
  h : HmacSecret
  authLen : Nat
  seen : Bool × Bool × Bool

/-- One entry of the hmac-secret input (`ctap-parser.c:482-529`). -/
def hsEntry (key : Int) (v : Cbor) (s : HsS) : P HsS := do
  if key == 1 then do
    -- every status of `parse_cose_key` becomes the same
    match parseCoseKey v s.h.key with
    | .ok k => return { s with h := { s.h with key := k }, seen := (true, s.seen.2) }
    | .error (.code _) => refuse Code.invalidCbor
    | .error e => .error e
  else if key == 2 then do
    let b ← bytesOf v
    let b ← copyIn 80 80 b Code.invalidLength
    return { s with h := { s.h with salt := put0 s.h.salt b, saltLen := b.length }, seen := (s.seen.1, true, s.seen.2.2) }
  else if key == 3 then do
    let b ← bytesOf v
    let b ← copyIn 32 32 b Code.invalidCbor
    return { s with h := { s.h with auth := put0 s.h.auth b }, authLen := b.length, seen := (s.seen.1, s.seen.2.1, true) }
  else if key == 4 then do
    let a ← intOf v
    return { s with h := { s.h with proto := (u8 a).toNat } }
  else return s

/-- The fields of the hmac-secret input, which are there from the beginning. -/
structure GaP where
  q : GaReq
  hs : HsS
  seen : Bool × Bool
  authBuf : Bytes

/-- The hmac-secret extension (`ctap-parser.c:462-547`). -/
def parseHs (v : Cbor) (s : HsS) : P HsS := do
  let l ← entriesOf v
  let s ← eachInt hsEntry l { s with h := { s.h with proto := 1 }, seen := (false, false, false) }
  refuseIf (s.seen != (true, true, true)) Code.missingParameter
  refuseIf ((s.h.proto == 1 && s.h.saltLen != 64 && s.h.saltLen != 32) ||
    (s.h.proto == 2 && s.h.saltLen != 80 && s.h.saltLen != 48)) Code.invalidLength
  refuseIf ((s.h.proto == 1 && s.authLen != 16) || (s.h.proto == 2 && s.authLen != 32)) Code.invalidLength
  return s

/-- `parse_ga_extensions` (`ctap-parser.c:436-565`). -/
def parseGaExt (v : Cbor) (s : GaP) : P GaP := do
  let l ← entriesOf v
  eachText 13 (fun key v s => do
    if key == str "hmac-secret" then do
      let hs ← parseHs v s.hs
      return { s with hs := hs, q := { s.q with hs := some hs.h } }
    else if key == str "credBlob" then do
      let b ← boolOf v
      return { s with q := { s.q with credBlob := b } }
    else if key == str "largeBlobKey" then do
      let b ← boolOf v
      refuseIf (!b) Code.invalidOption
      return { s with q := { s.q with lbk := b } }
    else return s) l s

/-- One entry of a getAssertion request (`ctap-parser.c:795-874`). -/
def gaEntry (x : Ext) (key : Int) (v : Cbor) (s : GaP) : P GaP := do
  if key == 1 then do
    let t ← textOf v
    let d ← copyIn 254 254 t Code.invalidCbor
    -- `domain[DOMAIN_NAME_MAX_SIZE - 1] = 0` comes before the hash
    let d := if d.length == 254 then d.take 253 ++ [0] else d
    return { s with q := { s.q with rpHash := x.sha d }, seen := (s.seen.1, true) }
  else if key == 2 then do
    let b ← bytesOf v
    let b ← copyIn 32 32 b Code.invalidCbor
    refuseIf (b.length != 32) Code.invalidCbor
    return { s with q := { s.q with cdh := b }, seen := (true, s.seen.2) }
  else if key == 3 then do
    let l ← parseList v
    return { s with q := { s.q with allow := l } }
  else if key == 4 then parseGaExt v s
  else if key == 5 then do
    let o ← parseOptions v ⟨s.q.up, s.q.uv, s.q.rk⟩
    return { s with q := { s.q with up := o.up, uv := o.uv, rk := o.rk } }
  else if key == 6 then do
    let (a, buf) ← authOf v s.authBuf
    return { s with q := { s.q with pinAuth := some a }, authBuf := buf }
  else if key == 7 then do
    let p ← protoOf v
    return { s with q := { s.q with proto := some p } }
  else return s

/-- The zeroed structure (`ctap-parser.c:771-776`). -/
def gaInit : GaP :=
  { q := { rpHash := zeros 32, cdh := zeros 32, allow := [], up := .absent, uv := .absent, rk := .absent, pinAuth := none,
           proto := none, hs := none, lbk := false, credBlob := false },
    hs := ⟨⟨zeros 64, zeros 80, 0, zeros 32, 0⟩, 0, (false, false, false)⟩, seen := (false, false), authBuf := zeros 32 }

/-- `parse_get_assertion` (`ctap-parser.c:766-882`). -/
def parseGa (x : Ext) (v : Cbor) : P GaReq := do
  let l ← entriesOf v
  let s ← eachInt (gaEntry x) l gaInit
  refuseIf (s.seen != (true, true)) Code.missingParameter
  return s.q

/-! ### authenticatorClientPIN -/

/-- `CTAP_client_pin` while it is parsed, with the bits of `parsed_params`. -/
structure CpS where
  q : CpReq
  seenProto : Bool
  seenSub : Bool
  seenKey : Bool
  seenAuth : Bool
  seenNew : Bool
  seenHash : Bool
  seenPerms : Bool

/-- One entry of a clientPIN request (`ctap-parser.c:907-1003`). -/
def cpEntry (x : Ext) (key : Int) (v : Cbor) (s : CpS) : P CpS := do
  if key == 1 then do
    let p ← protoOf v
    return { s with q := { s.q with proto := p }, seenProto := true }
  else if key == 2 then do
    let a ← intOf v
    return { s with q := { s.q with sub := u8 a }, seenSub := true }
  else if key == 3 then do
    let k ← parseCoseKey v s.q.key
    return { s with q := { s.q with key := k }, seenKey := true }
  else if key == 4 then do
    let b ← bytesOf v
    refuseIf (b.length == 0 || b.length > 32) Code.pinAuthInvalid
    let b ← copyIn 32 b.length b Code.invalidCbor
    return { s with q := { s.q with pinAuth := put s.q.pinAuth b }, seenAuth := true }
  else if key == 5 then do
    let b ← bytesOf v
    refuseIf ((s.q.proto == 1 && b.length != 64) || (s.q.proto == 2 && b.length != 80)) Code.invalidCbor
    let b ← copyIn 80 b.length b Code.invalidCbor
    return { s with q := { s.q with newPinEnc := put s.q.newPinEnc b }, seenNew := true }
  else if key == 6 then do
    let b ← bytesOf v
    refuseIf ((s.q.proto == 1 && b.length != 16) || (s.q.proto == 2 && b.length != 32)) Code.invalidCbor
    let b ← copyIn 32 b.length b Code.invalidCbor
    return { s with q := { s.q with pinHashEnc := put s.q.pinHashEnc b }, seenHash := true }
  else if key == 9 then do
    let a ← intOf v
    refuseIf (u8 a == 0) Code.invalidParameter
    refuseIf (u8 a &&& 0x28 != 0) Code.unauthorizedPermission
    return { s with q := { s.q with perms := u8 a }, seenPerms := true }
  else if key == 10 then do
    let t ← textOf v
    let d ← copyIn 255 254 t Code.invalidCbor
    poke 255 d.length
    return { s with q := { s.q with rp := some (x.sha d) } }
  else return s

/-- The zeroed structure (`ctap-parser.c:889`). -/
def cpInit : CpS :=
  { q := ⟨0, 0, zeros 64, zeros 32, zeros 80, zeros 32, 0, none⟩, seenProto := false, seenSub := false, seenKey := false,
    seenAuth := false, seenNew := false, seenHash := false, seenPerms := false }

/-- `parse_client_pin` (`ctap-parser.c:884-1050`). -/
def parseCp (x : Ext) (v : Cbor) : P CpReq := do
  let l ← entriesOf v
  let s ← eachInt (cpEntry x) l cpInit
  refuseIf (!s.seenSub) Code.missingParameter
  refuseIf (s.q.sub == 2 && !s.seenProto) Code.missingParameter
  refuseIf (s.q.sub == 3 && !(s.seenProto && s.seenKey && s.seenNew && s.seenAuth)) Code.missingParameter
  refuseIf (s.q.sub == 4 && !(s.seenProto && s.seenKey && s.seenHash && s.seenNew && s.seenAuth)) Code.missingParameter
  refuseIf (s.q.sub == 5 && !(s.seenProto && s.seenKey && s.seenHash)) Code.missingParameter
  refuseIf (s.q.sub == 5 && (s.seenPerms || s.q.rp.isSome)) Code.invalidParameter
  refuseIf (s.q.sub == 9 && !(s.seenProto && s.seenKey && s.seenHash && s.seenPerms)) Code.missingParameter
  return s.q

/-! ### authenticatorCredentialManagement -/

/-- `CTAP_credential_management` while it is parsed, with the bits of `parsed_params`. -/
structure CmS where
  q : CmReq
  seenSub : Bool
  seenProto : Bool
  seenAuth : Bool
  seenRp : Bool
  seenCid : Bool
  seenUser : Bool

/-- One subcommand parameter (`ctap-parser.c:587-618`). -/
def cmParam (key : Int) (v : Cbor) (s : CmS) : P CmS := do
  if key == 1 then do
    let b ← bytesOf v
    refuseIf (b.length != 32) Code.invalidCbor
    let b ← copyIn 32 b.length b Code.invalidCbor
    return { s with q := { s.q with rpHash := b }, seenRp := true }
  else if key == 2 then do
    -- every status becomes the same
    match parseDescriptor v with
    | .ok b => do
      let b ← copyIn 70 70 b Code.invalidCbor
      return { s with q := { s.q with cid := put0 s.q.cid b }, seenCid := true }
    | .error (.code _) => refuse Code.invalidCbor
    | .error e => .error e
  else if key == 3 then
    match parseUser v s.q.user with
    | .ok u => return { s with q := { s.q with user := u }, seenUser := true }
    | .error (.code _) => refuse Code.invalidCbor
    | .error e => .error e
  else return s

/-- One entry of a credentialManagement request (`ctap-parser.c:1074-1120`); `enc` gives the bytes in which an
item arrived. -/
def cmEntry (enc : Cbor → Bytes) (key : Int) (v : Cbor) (s : CmS) : P CmS := do
  if key == 1 then do
    let a ← intOf v
    return { s with q := { s.q with sub := u8 a }, seenSub := true }
  else if key == 2 then
    match (do let l ← entriesOf v; eachInt cmParam l s : P CmS) with
    | .ok s => return { s with q := { s.q with params := enc v } }
    | .error (.code _) => refuse Code.invalidCbor
    | .error e => .error e
  else if key == 3 then do
    let p ← protoOf v
    return { s with q := { s.q with proto := p }, seenProto := true }
  else if key == 4 then do
    let b ← bytesOf v
    refuseIf (b.length == 0 || b.length > 32) Code.pinAuthInvalid
    let b ← copyIn 32 b.length b Code.invalidCbor
    return { s with q := { s.q with pinAuth := put s.q.pinAuth b }, seenAuth := true }
  else return s

/-- The zeroed structure (`ctap-parser.c:1058`). -/
def cmInit : CmS :=
  { q := ⟨0, [], zeros 32, zeros 70, ⟨[], [], []⟩, 0, zeros 32⟩, seenSub := false, seenProto := false, seenAuth := false,
    seenRp := false, seenCid := false, seenUser := false }

/-- `parse_credential_management` (`ctap-parser.c:1052-1153`). -/
def parseCm (enc : Cbor → Bytes) (v : Cbor) : P CmReq := do
  let l ← entriesOf v
  let s ← eachInt (cmEntry enc) l cmInit
  refuseIf (!s.seenSub) Code.missingParameter
  refuseIf (cmAuthed s.q.sub && !s.seenAuth) Code.puatRequired
  refuseIf (cmAuthed s.q.sub && !s.seenProto) Code.missingParameter
  refuseIf (s.q.sub == 4 && !s.seenRp) Code.missingParameter
  refuseIf (s.q.sub == 6 && !s.seenCid) Code.missingParameter
  refuseIf (s.q.sub == 7 && !(s.seenUser && s.seenCid)) Code.missingParameter
  return s.q

/-! ### authenticatorLargeBlobs -/

/-- `CTAP_large_blobs` while it is parsed; `set` is as given. -/
structure LbP where
  q : LbReq
  set : Option Bytes
  offset : Option Nat
  length : Option Nat
  authBuf : Bytes

/-- A `uint16_t` parameter. -/
def u16Of (v : Cbor) : P Nat := do
  let a ← intOf v
  refuseIf (a < 0) Code.unexpectedType
  return min a.toNat 65535

/-- One entry of a largeBlobs request (`ctap-parser.c:1177-1262`). That the data begin where the code says they do (it
assumes the shortest encoding of the length) is an assumption. -/
def lbEntry (key : Int) (v : Cbor) (s : LbP) : P LbP := do
  if key == 1 then do
    let n ← u16Of v
    return { s with q := { s.q with get := some n } }
  else if key == 2 then do
    let b ← bytesOf v
    return { s with q := { s.q with set := b }, set := some b }
  else if key == 3 then do
    let n ← u16Of v
    return { s with q := { s.q with offset := n }, offset := some n }
  else if key == 4 then do
    let n ← u16Of v
    return { s with q := { s.q with length := n }, length := some n }
  else if key == 6 then do
    let p ← protoOf v
    return { s with q := { s.q with proto := some p } }
  else if key == 5 then do
    let b ← bytesOf v
    refuseIf (b.length == 0 || b.length > 32) Code.pinAuthInvalid
    let b ← copyIn 32 b.length b Code.invalidCbor
    return { s with q := { s.q with pinAuth := some (put s.authBuf b) }, authBuf := put s.authBuf b }
  else return s

/-- `parse_large_blobs` (`ctap-parser.c:1155-1288`). -/
def parseLb (v : Cbor) : P LbReq := do
  let l ← entriesOf v
  let s ← eachInt lbEntry l ⟨⟨none, [], 0, 0, none, none⟩, none, none, none, zeros 32⟩
  refuseIf s.offset.isNone Code.invalidParameter
  refuseIf (s.q.get.isNone && s.set.isNone) Code.invalidParameter
  refuseIf (s.q.get.isSome && s.length.isSome) Code.invalidParameter
  refuseIf (s.q.get.isSome && (s.q.pinAuth.isSome || s.q.proto.isSome)) Code.invalidParameter
  refuseIf (s.q.get.any (· > 1236)) Code.invalidLength
  refuseIf (s.set.isSome && s.q.set.length > 1236) Code.invalidLength
  refuseIf (s.set.isSome && s.q.offset == 0 && s.length.isNone) Code.invalidParameter
  refuseIf (s.set.isSome && s.q.offset == 0 && s.q.length > 4096) Code.storageFull
  refuseIf (s.set.isSome && s.q.offset == 0 && s.q.length < 17) Code.invalidParameter
  refuseIf (s.set.isSome && s.q.offset != 0 && s.length.isSome) Code.invalidParameter
  return s.q

/-! ### The request -/

/-- A status that a parser returns is returned by the command. -/
def statusOf {α : Type} (p : P α) : P (Except Byte α) :=
  match p with
  | .ok a => pure (.ok a)
  | .error (.code c) => pure (.error c)
  | .error (.ub u) => .error (.ub u)

/-- What `ctap_process_cbor` (`ctap.c:2162-2234`) hands to the command functions: the command byte and the item
after it. -/
def parseReq (x : Ext) (sm2 : Sm2) (enc : Cbor → Bytes) (cmd : Byte) (v : Cbor) : P Req :=
  if cmd == 0x01 then do return .mc (← statusOf (parseMc x sm2 v))
  else if cmd == 0x02 then do return .ga (← statusOf (parseGa x v))
  else if cmd == 0x08 then return .gna
  else if cmd == 0x04 then return .info
  else if cmd == 0x06 then do return .cp (← statusOf (parseCp x v))
  else if cmd == 0x07 then return .reset
  -- 0x41 for old versions of libfido2
  else if cmd == 0x0A || cmd == 0x41 then do return .cm (← statusOf (parseCm enc v))
  else if cmd == 0x0B then return .sel
  else if cmd == 0x0C then do return .lb (← statusOf (parseLb v))
  else return .other cmd

end Verif.Ctap.Parse
