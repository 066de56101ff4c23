import Verif.Base.Mem
/-
The messages of U2F as they are put together in the buffer (`/repo/applets/ctap/u2f.c:16-103`). The request lies in the
same buffer as the response, at some offset: 0 for CCID, WebUSB and NFC (`/repo/interfaces/USB/class/ccid/ccid.c:34`,
`/repo/interfaces/NFC/nfc.c:34-35`), 7 for CTAPHID (`/repo/interfaces/USB/class/ctaphid/ctaphid.c`, `CTAPHID_Execute_Msg`).
-/
namespace Verif.U2fMsg

/-- The functions of canokey-crypto: SHA-256, `ecc_sign` with P-256 (which reads the digest before it writes the
signature), `ecdsa_sig2ansi` with 32-byte numbers. -/
structure Lib where
  sha : Bytes → Bytes
  sign : (key digest : Bytes) → Bytes
  ansi : Bytes → Bytes

/-- Their results have the sizes of the algorithms. -/
structure Lib.Ok (x : Lib) : Prop where
  sha : ∀ b, (x.sha b).length = 32
  sign : ∀ k d, (x.sign k d).length = 64
  ansi : ∀ b, b.length = 64 → (x.ansi b).length ≤ 72

/-- `sizeof(credential_id)` (`/repo/applets/ctap/ctap-internal.h:239-244`). -/
def khLen : Nat := 70

/-- `sign` into the buffer at `s`, and the conversion there (`/repo/applets/ctap/secret.c:334-341`, `u2f.c:97-99`); gives
the length. -/
def signAt (x : Lib) (b : Bytes) (s : Nat) (key digest : Bytes) : C (Bytes × Nat) := do
  let b ← wrRange b s (x.sign key digest)
  let raw ← rdRange b s 64
  let b ← wrRange b s (x.ansi raw)
  return (b, (x.ansi raw).length)

/-- `u2f_register` after the touch (`u2f.c:26-64`). `kh` and `pub` are the results of `generate_key_handle` for the
application, `cert` the contents of the certificate file (at most 1152 bytes are read), `dev` the device key, or none
if it cannot be read. The result is the buffer and `LL`. -/
def register (x : Lib) (b : Bytes) (o : Nat) (kh : Bytes → Bytes) (pub : Bytes) (cert : Bytes) (dev : Option Bytes) :
    C (Bytes × Nat) := do
  let app ← rdRange b (o + 32) 32
  let kh := kh app
  let h1 := [0x00]
  let h2 ← rdRange b (o + 32) 32
  let h3 ← rdRange b o 32
  let b ← wrRange b 0 [0x05]
  let b ← wrRange b 1 [0x04]
  let b ← wrRange b 2 pub
  let b ← wrRange b 66 [UInt8.ofNat khLen]
  let b ← wrRange b 67 kh
  let cert := cert.take 1152
  let b ← wrRange b (67 + khLen) cert
  let p ← rdRange b 1 65
  let digest := x.sha (h1 ++ h2 ++ h3 ++ kh ++ p)
  match dev with
  | none => return (b, 67 + khLen + cert.length)
  | some k =>
    let (b, n) ← signAt x b (67 + khLen + cert.length) k digest
    return (b, 67 + khLen + cert.length + n)

/-- The four bytes of `htobe32(ctr)`. -/
def be32 (n : UInt32) : Bytes :=
  [UInt8.ofNat (n.toNat / 16777216), UInt8.ofNat (n.toNat / 65536), UInt8.ofNat (n.toNat / 256), UInt8.ofNat n.toNat]

/-- `u2f_authenticate` after the touch (`u2f.c:87-103`). `ctr` is the new value of the counter; `auth_data` holds the
application, the flags and the counter. The digest is stored over the application in the request, and the signature
is made from there. -/
def authenticate (x : Lib) (b : Bytes) (o : Nat) (ctr : UInt32) (key : Bytes) : C (Bytes × Nat) := do
  let app ← rdRange b (o + 32) 32
  let ad := app ++ [0x01] ++ be32 ctr
  let chal ← rdRange b o 32
  let digest := x.sha (ad ++ chal)
  let b ← wrRange b (o + 32) digest
  let b ← wrRange b 0 ([0x01] ++ be32 ctr)
  let d ← rdRange b (o + 32) 32
  let (b, n) ← signAt x b 5 key d
  return (b, n + 5)

/-- The status word behind the data (`CTAPHID_Execute_Msg`; `nfc.c:145-146` and `ccid.c` do the same); what is sent. -/
def send (r : Bytes × Nat) : C Bytes := do
  let b ← wrRange r.1 r.2 [0x90, 0x00]
  rdRange b 0 (r.2 + 2)

end Verif.U2fMsg
