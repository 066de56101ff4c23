import Verif.Base.Parse
/-
Model of the TLV length decoder (`/repo/src/common.c:5-40`) and of the parsers for imported keys
(`/repo/src/key.c:85-370`, `/repo/applets/openpgp/openpgp.c:1183-1221`).

Pointers are offsets into the command data `mem`; reading outside of `mem` is `Ub.oob`.
-/
namespace Verif.Key

/-- `tlv_get_length_safe(mem + off, len, ..)` (`/repo/src/common.c:5-40`).  `none` is `*fail = 1`;
otherwise the length and `*length_size`. -/
def tlvLen (mem : Bytes) (off len : Nat) : C (Option (Nat × Nat)) := do
  if len < 1 then return none
  let b ← rd mem off
  let r : Option (Nat × Nat) ←
    if b < 0x80 then pure (some (b.toNat, 1))
    else if b == 0x81 then
      if len < 2 then pure none else do
        let x ← rd mem (off + 1)
        pure (some (x.toNat, 2))
    else if b == 0x82 then
      if len < 3 then pure none else do
        let x ← rd mem (off + 1)
        let y ← rd mem (off + 2)
        pure (some (be16 x y, 3))
    else pure none
  match r with
  | none => return none
  | some (n, k) => if n + k > len then return none else return some (n, k)

/-- Error codes (`/repo/include/key.h:9-11`); `other` is the -1 of an unsupported key type. -/
inductive KErr where
  | length
  | data
  | proc
  | other
  deriving DecidableEq, Repr

/-- Parser monad: undefined behaviour, an error code, or a value. -/
abbrev P (α : Type) := PE KErr α

/-- Key type with the lengths of canokey-crypto's `PRIVATE_KEY_LENGTH`/`PUBLIC_KEY_LENGTH` tables
(external). -/
structure KType where
  rsa : Bool
  ed25519 : Bool
  x25519 : Bool
  priv : Nat
  pub : Nat
  deriving DecidableEq, Repr

/-- What the parsers fill in of `ck_key_t` (`/repo/include/key.h:39-54`). -/
structure KeyMat where
  pinPolicy : Byte
  touchPolicy : Byte
  /-- `ecc.pri` -/
  pri : Bytes
  e : Bytes
  p : Bytes
  q : Bytes
  dp : Bytes
  dq : Bytes
  qinv : Bytes
  deriving DecidableEq, Repr

/-- A zeroed field of `size` bytes with `d` copied right-aligned, as in
`memcpy(field + (size - len), p, len)` after `memzero`. -/
def rightAligned (size : Nat) (d : Bytes) : Bytes := List.replicate (size - d.length) 0 ++ d

/-- The external curve and key checks (`ecc_verify_private_key`, `ecc_complete_key`), and the
comparison of the leading 32 bits of p and q with `CEIL_DIV_SQRT2` (`/repo/src/key.c:8,193`). -/
structure Ext where
  eccVerify : Bytes → Bool
  eccComplete : Bytes → Bool
  swapEndian : Bytes → Bytes
  primeOk : Bytes → Bool

/-- `ck_parse_piv_policies` (`/repo/src/key.c:85-123`); the list is what is left of the buffer.
Reading `*buf++` at `end` is `Ub.oob`: this happens after a tag AA or AB that is the last byte, and
after `AA 01`/`AB 01` at the end, because the checks `buf < end &&` are skipped there. -/
def policies (k : KeyMat) : Bytes → Except Ub (Except KErr KeyMat)
  | [] => .ok (.ok k)
  | t :: rest =>
    if t == 0xAA then
      match rest with
      | [] => .error .oob
      | l :: rest =>
        if l != 0x01 then .ok (.error .length)
        else
          match rest with
          | [] => .error .oob
          | v :: rest =>
            if v > 3 || v < 1 then .ok (.error .data)
            else policies { k with pinPolicy := v } rest
    else if t == 0xAB then
      match rest with
      | [] => .error .oob
      | l :: rest =>
        if l != 0x01 then .ok (.error .length)
        else
          match rest with
          | [] => .error .oob
          | v :: rest =>
            if v > 3 || v < 1 then .ok (.error .data)
            else policies { k with touchPolicy := v } rest
    else .ok (.ok k)

/-- One round of the loop over the RSA components (`/repo/src/key.c:175-185`): tag `i`, a length of
at most `priv`, the value.  Returns the right-aligned component and the next offset. -/
def rsaComponent (mem : Bytes) (priv : Nat) (i : Byte) (off : Nat) : P (Bytes × Nat) := do
  if off ≥ mem.length then throw .length
  let t ← liftM (rd mem off)
  if t != i then throw .data
  let off := off + 1
  match ← liftM (tlvLen mem off (mem.length - off)) with
  | none => throw .length
  | some (len, ls) =>
    if len > priv then throw .data
    let off := off + ls
    let d ← liftM (rdRange mem off len)
    return (rightAligned priv d, off + len)

/-- `ck_parse_piv` up to the policies (`/repo/src/key.c:125-200`): the key and the offset of what
follows.  `k0` carries the policies read from the key file. Simplification: `data_ptr` order
p, q, dp, dq, qinv is written out. -/
def parsePivKey (x : Ext) (ty : KType) (k0 : KeyMat) (mem : Bytes) : P (KeyMat × Nat) := do
  if ty.rsa then
    let (p, o1) ← rsaComponent mem ty.priv 1 0
    let (q, o2) ← rsaComponent mem ty.priv 2 o1
    let (dp, o3) ← rsaComponent mem ty.priv 3 o2
    let (dq, o4) ← rsaComponent mem ty.priv 4 o3
    let (qinv, o5) ← rsaComponent mem ty.priv 5 o4
    if !x.primeOk p || !x.primeOk q then throw .data
    return ({ k0 with e := [0, 1, 0, 1], p := p, q := q, dp := dp, dq := dq, qinv := qinv }, o5)
  else
    if mem.length < ty.priv + 2 then throw .length
    let t ← liftM (rd mem 0)
    if t != 0x06 && !(ty.ed25519 && t == 0x07) && !(ty.x25519 && t == 0x08) then throw .data
    let l ← liftM (rd mem 1)
    if l.toNat != ty.priv then throw .length
    let d ← liftM (rdRange mem 2 ty.priv)
    let d := if ty.x25519 then x.swapEndian d else d
    if !x.eccVerify d then throw .data
    if !x.eccComplete d then throw .proc
    return ({ k0 with pri := d }, 2 + ty.priv)

/-- `ck_parse_piv` (`/repo/src/key.c:125-203`). -/
def parsePiv (x : Ext) (ty : KType) (k0 : KeyMat) (mem : Bytes) : P KeyMat := do
  let (k, off) ← parsePivKey x ty k0 mem
  ExceptT.mk (policies k (mem.drop off))

/-- `E_LENGTH` of canokey-crypto. -/
def E_LENGTH : Nat := 4

/-- One `tag length` entry of the private key template (`/repo/src/key.c:243-248` and alike): at
`off` (relative to `start`), with `bufLen` the length the parser believes it has. -/
def tagLen (mem : Bytes) (start bufLen off : Nat) (tag : Byte) : P (Nat × Nat) := do
  if off + 1 ≥ bufLen then throw .length
  let t ← liftM (rd mem (start + off))
  if t != tag then throw .data
  let off := off + 1
  match ← liftM (tlvLen mem (start + off) (bufLen - off)) with
  | none => throw .length
  | some (len, ls) => return (len, off + ls)

/-- A two-byte tag (`/repo/src/key.c:231-232`, `264-265`, `338-339`). -/
def tag2 (mem : Bytes) (start bufLen off : Nat) (a b : Byte) : P Nat := do
  if off + 2 ≥ bufLen then throw .length
  let t ← liftM (rd mem (start + off))
  if t != a then throw .data
  let t ← liftM (rd mem (start + off + 1))
  if t != b then throw .data
  return off + 2

/-- `tlv_get_length_safe(p, buf_len - (p - buf), ..)` with `e` thrown on failure. -/
def lenAt (mem : Bytes) (start bufLen off : Nat) (e : KErr) : P (Nat × Nat) := do
  match ← liftM (tlvLen mem (start + off) (bufLen - off)) with
  | none => throw e
  | some (len, ls) => return (len, off + ls)

/-- The optional public key entry of the ECC template (`/repo/src/key.c:253-261`): its length. -/
def optPub (mem : Bytes) (start bufLen off dataTag pub : Nat) : P Nat := do
  if off < dataTag then
    if off + 1 ≥ bufLen then throw .length
    let t ← liftM (rd mem (start + off))
    if t == 0x99 then
      let (n, _) ← lenAt mem start bufLen (off + 1) .length
      if n > pub + 1 then throw .data
      return n
    else return 0
  else return 0

/-- `ck_parse_openpgp` (`/repo/src/key.c:222-370`) on the buffer at offset `start` of the command
data, which the caller says has `bufLen` bytes. -/
def parseOpenpgp (x : Ext) (ty : KType) (k0 : KeyMat) (mem : Bytes) (start bufLen : Nat) :
    P KeyMat := do
  let off ← tag2 mem start bufLen 0 0x7F 0x48
  let (len, off) ← lenAt mem start bufLen off .length
  if len > 0x16 then throw .data
  let dataTag := off + len
  if ty.rsa then
    let (eLen, off) ← tagLen mem start bufLen off 0x91
    if eLen != E_LENGTH then throw .data
    let (pLen, off) ← tagLen mem start bufLen off 0x92
    if pLen != ty.priv then throw .data
    let (qLen, off) ← tagLen mem start bufLen off 0x93
    if qLen != ty.priv then throw .data
    let (qinvLen, off) ← tagLen mem start bufLen off 0x94
    if qinvLen > ty.priv then throw .data
    let (dpLen, off) ← tagLen mem start bufLen off 0x95
    if dpLen > ty.priv then throw .data
    let (dqLen, _) ← tagLen mem start bufLen off 0x96
    if dqLen > ty.priv then throw .data
    let off ← tag2 mem start bufLen dataTag 0x5F 0x48
    let (len, off) ← lenAt mem start bufLen off .length
    if len != ty.priv * 2 + qinvLen + dpLen + dqLen + E_LENGTH then throw .data
    if off + len > bufLen then throw .length
    let e ← liftM (rdRange mem (start + off) E_LENGTH)
    let p ← liftM (rdRange mem (start + off + E_LENGTH) ty.priv)
    let q ← liftM (rdRange mem (start + off + E_LENGTH + ty.priv) ty.priv)
    let qinv ← liftM (rdRange mem (start + off + E_LENGTH + ty.priv + ty.priv) qinvLen)
    let dp ← liftM (rdRange mem (start + off + E_LENGTH + ty.priv + ty.priv + qinvLen) dpLen)
    let dq ← liftM (rdRange mem (start + off + E_LENGTH + ty.priv + ty.priv + qinvLen + dpLen) dqLen)
    if !x.primeOk p || !x.primeOk q then throw .data
    return { k0 with e := e, p := p, q := q, qinv := rightAligned ty.priv qinv,
                     dp := rightAligned ty.priv dp, dq := rightAligned ty.priv dq }
  else
    let (priLen, off) ← tagLen mem start bufLen off 0x92
    if priLen > ty.priv then throw .data
    let pubLen ← optPub mem start bufLen off dataTag ty.pub
    let off ← tag2 mem start bufLen dataTag 0x5F 0x48
    let (len, off) ← lenAt mem start bufLen off .data
    if len != priLen + pubLen then throw .data
    if off + priLen > bufLen then throw .length
    let d ← liftM (rdRange mem (start + off) priLen)
    let d := rightAligned ty.priv d
    if !x.eccVerify d then throw .data
    if !x.eccComplete d then throw .proc
    return { k0 with pri := d }

/-- Status words of the import command. -/
inductive ISw where
  | wrongLength
  | wrongData
  | unable
  deriving DecidableEq, Repr

/-- The template walk of `openpgp_import_key` (`/repo/applets/openpgp/openpgp.c:1196-1221`) after the
PW3 and P1/P2 checks.  `keyType ref` is the type stored in the metadata of the key slot named by
the control reference template (`none` for an unknown reference); a metadata read failure is not
modelled.  `LC - (p - DATA)` is computed in `ptrdiff_t` and converted to `size_t`, so it wraps (to a
32-bit value on this platform) when `p` is past the end. Returns the key reference and the key. -/
def importKey (x : Ext) (keyType : Byte → Option KType) (k0 : KeyMat) (mem : Bytes) :
    C (Except ISw (Byte × KeyMat)) := do
  let lc := mem.length
  if lc < 2 then return .error .wrongLength
  let t ← rd mem 0
  if t != 0x4D then return .error .wrongData
  match ← tlvLen mem 1 (lc - 1) with
  | none => return .error .wrongData
  | some (len, ls) =>
    if len < 2 then return .error .wrongData
    if len + ls + 1 != lc then return .error .wrongLength
    let p := 1 + ls
    let ref ← rd mem p
    match keyType ref with
    | none => return .error .wrongData
    | some ty =>
      let c ← rd mem (p + 1)
      if c != 0x00 && c != 0x03 then return .error .wrongData
      let p := p + 1 + (c.toNat + 1)
      let bufLen := if p ≤ lc then lc - p else 2 ^ 32 - (p - lc)
      match ← (parseOpenpgp x ty k0 mem p bufLen).run with
      | .ok k => return .ok (ref, k)
      | .error .length => return .error .wrongLength
      | .error .data => return .error .wrongData
      | .error _ => return .error .unable

end Verif.Key
