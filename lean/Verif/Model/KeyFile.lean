import Verif.Base.Cmd
import Verif.Model.Key
/-
Key files: `/repo/src/key.c:12-83,372-451` and `/repo/include/key.h:13-54`. The types of keys, the tables of
lengths and the cryptographic operations belong to canokey-crypto and are parameters.
-/
namespace Verif.KeyFile
open Verif.Key (KeyMat)

/-- `key_type_t` of canokey-crypto as the code of `/repo` uses it; `none` is `KEY_TYPE_PKC_END`. -/
inductive KTy where
  | secp256r1
  | secp256k1
  | secp384r1
  | secp521r1
  | sm2
  | ed25519
  | x25519
  | rsa2048
  | rsa3072
  | rsa4096
  | tdea
  | none
  deriving DecidableEq, Repr

/-- `IS_RSA` (canokey-crypto). -/
def KTy.isRsa : KTy → Bool
  | .rsa2048 | .rsa3072 | .rsa4096 => true
  | _ => false

/-- `IS_SHORT_WEIERSTRASS` (canokey-crypto). -/
def KTy.isWei : KTy → Bool
  | .secp256r1 | .secp256k1 | .secp384r1 | .secp521r1 | .sm2 => true
  | _ => false

/-- `IS_ECC` (canokey-crypto). -/
def KTy.isEcc (t : KTy) : Bool := t.isWei || t == .ed25519 || t == .x25519

/-- `key_meta_t` (`/repo/include/key.h:39-45`); origin 0 is "not present", 1 generated, 2 imported. -/
structure Meta where
  type : KTy
  origin : Byte
  usage : Byte
  pin : Byte
  touch : Byte
  deriving DecidableEq, Repr

/-- A key file: its contents and the attribute 0xFF with the metadata (`/repo/src/key.c:7`). -/
structure KeyFile where
  mat : KeyMat
  info : Option Meta
  deriving DecidableEq, Repr

/-- The tables and operations of canokey-crypto. A result `none` is a negative return code. -/
structure Crypto where
  /-- `PRIVATE_KEY_LENGTH`, `PUBLIC_KEY_LENGTH` and `SIGNATURE_LENGTH` -/
  priv : KTy → Nat
  pub : KTy → Nat
  sig : KTy → Nat
  /-- the checks of imported keys -/
  imp : KTy → Key.Ext
  /-- `ecc.pub` or `rsa_get_public_key` -/
  pubOf : KTy → KeyMat → Bytes
  /-- `swap_big_number_endian` -/
  swap : Bytes → Bytes
  /-- `ecc_sign`, `rsa_sign_pkcs_v15` -/
  sign : KTy → KeyMat → Bytes → Option Bytes
  /-- `rsa_private` -/
  rsaPrivate : KeyMat → Bytes → Option Bytes
  /-- `ecdsa_sig2ansi` -/
  ansi : Nat → Bytes → Bytes
  /-- `ecdh` -/
  ecdh : KTy → KeyMat → Bytes → Option Bytes
  /-- `tdes_enc` with the key first -/
  tdes : Bytes → Bytes → Option Bytes

/-- The view of a key type the parsers of imported keys take. -/
def Crypto.kt (x : Crypto) (t : KTy) : Key.KType :=
  ⟨t.isRsa, t == .ed25519, t == .x25519, x.priv t, x.pub t⟩

/-- `HI`/`LO` (`/repo/include/common.h`). -/
def hi (n : Nat) : Byte := UInt8.ofNat (n / 256)
def lo (n : Nat) : Byte := UInt8.ofNat n

/-- `ck_encode_public_key(key, buf, true)` (`/repo/src/key.c:12-83`). -/
def encodePub (x : Crypto) (t : KTy) (k : KeyMat) : Option Bytes :=
  let n := x.pub t
  match t with
  | .secp256r1 | .secp256k1 | .secp384r1 | .sm2 =>
    some ([lo (n + 3), 0x86, lo (n + 1), 0x04] ++ x.pubOf t k)
  | .secp521r1 => some ([0x81, lo (n + 4), 0x86, 0x81, lo (n + 1), 0x04] ++ x.pubOf t k)
  | .ed25519 => some ([lo (n + 2), 0x86, lo n] ++ x.pubOf t k)
  | .x25519 => some ([lo (n + 2), 0x86, lo n] ++ x.swap (x.pubOf t k))
  | .rsa2048 | .rsa3072 | .rsa4096 =>
    some ([0x82, hi (6 + n + 4), lo (6 + n + 4), 0x81, 0x82, hi n, lo n] ++ x.pubOf t k ++ [0x82, 4] ++ k.e)
  | .tdea | .none => none

/-- A zeroed key. -/
def zeroMat : KeyMat := ⟨0, 0, [], [], [], [], [], [], []⟩

/-- `write_file(path, key->data, 0, .., 1)` of `ck_write_key` (`/repo/src/key.c:387`). -/
def putMat (m : KeyMat) (k : Option KeyFile) : Option KeyFile := some ⟨m, k.bind (·.info)⟩

/-- `ck_write_key_metadata` (`/repo/src/key.c:376-378`); fails on a missing file. -/
def putInfo (i : Meta) (k : Option KeyFile) : Option (Option KeyFile) := k.map fun f => some { f with info := some i }

end Verif.KeyFile
