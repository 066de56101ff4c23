import Verif.Model.CtapCmd
/-
A toy instance of the cryptography, for concrete histories of the FIDO applet in the examples: hashes
and MACs are prefixes of their inputs, ciphertexts are plaintexts, the shared secret is what the platform
sends.  Nothing that is proved in general depends on it.
-/
namespace Verif.Ctap.Toy

/-- Sum of the bytes. -/
def sum (b : Bytes) : Byte := b.foldl (fun a c => a * 3 + c) 7
/-- 32 bytes. -/
def sha (b : Bytes) : Bytes := (b ++ List.replicate 32 0).take 32
/-- 32 bytes that depend on key and message. -/
def hmac (k m : Bytes) : Bytes := (sum k :: sum m :: (m ++ List.replicate 32 0)).take 32

def ext : Ext where
  hmac := hmac
  sha := sha
  ecdh := fun _ pub => some pub
  kaPub := fun n => [UInt8.ofNat n]
  cbcDec := fun _ _ c => c
  cbcEnc := fun _ _ c => c

/-- Circumstances of a command at time `t`. -/
def env (t : UInt32) : In :=
  { tick := t, tick' := t, nfc := false, presence := .ok, touch := true,
    rndTok := List.replicate 32 0xAA, rndNonce := (List.range 16).map UInt8.ofNat, rndIv := List.replicate 16 0xBB,
    rndKh := List.replicate 32 0xCC, rndHe := List.replicate 32 0xDD, junk := List.replicate 70 0 }

/-- No fault. -/
def fine : Env := fun _ => .ok
/-- Power is cut at file-system call `n`. -/
def cutAt (n : Nat) : Env := fun k => if k = n then .cut else .ok

/-- A PIN padded to 64 bytes. -/
def padded (p : Bytes) : Bytes := p ++ List.replicate (64 - p.length) 0
def pinHash (p : Bytes) : Bytes := (sha p).take 16

/-- setPIN. -/
def setPin (p : Bytes) : Req := .cp (.ok
  { sub := 3, proto := 1, key := [5], pinAuth := (hmac ((sha [5]).take 32) (padded p)).take 16,
    newPinEnc := padded p, pinHashEnc := List.replicate 16 0, perms := 0, rp := none })
/-- changePIN. -/
def changePin (old new : Bytes) : Req := .cp (.ok
  { sub := 4, proto := 1, key := [5], pinAuth := (hmac ((sha [5]).take 32) (padded new ++ pinHash old)).take 16,
    newPinEnc := padded new, pinHashEnc := pinHash old, perms := 0, rp := none })
/-- getPinUvAuthTokenUsingPinWithPermissions. -/
def getToken (p : Bytes) (perms : Byte) (rp : Option Bytes) : Req := .cp (.ok
  { sub := 9, proto := 1, key := [5], pinAuth := [], newPinEnc := [], pinHashEnc := pinHash p, perms := perms, rp := rp })
/-- getPinToken. -/
def getOldToken (p : Bytes) : Req := .cp (.ok
  { sub := 5, proto := 1, key := [5], pinAuth := [], newPinEnc := [], pinHashEnc := pinHash p, perms := 0, rp := none })

def pin1 : Bytes := [0x31, 0x32, 0x33, 0x34]
def pin2 : Bytes := [0x35, 0x36, 0x37, 0x38]
def pin3 : Bytes := [0x39, 0x39, 0x39, 0x39]

/-- A history without faults in which all commands run at the given times. -/
def hist (l : List (UInt32 × Req)) : List (Op × Env) := l.map fun p => (.cbor (env p.1) p.2, fine)

/-- A device after production: attestation key, certificate and SM2 configuration are installed. -/
def produced : St := (run ext St.blank [(.powerOn (env 0), fine), (.installCert [0x30], fine),
  (.installKey (List.replicate 32 1), fine), (.powerOn (env 0), fine)]).1
/-- A device with `pin1` set. -/
def withPin1 : St := (run ext produced (hist [(20000, setPin pin1)])).1

/-- Two relying parties and two users. -/
def rpA : Bytes := List.replicate 32 0x0A
def rpB : Bytes := List.replicate 32 0x0B
def user1 : User := ⟨[1], [0x61], [0x41]⟩
def user2 : User := ⟨[2], [0x62], [0x42]⟩
def cdh : Bytes := List.replicate 32 0x77

/-- Authentication of a message by the current token. -/
def auth (msg : Bytes) : Bytes := (hmac (List.replicate 32 0xAA) msg).take 16

/-- makeCredential of a discoverable (`rk`) credential. -/
def mcReq (rp : Bytes) (u : User) (rk : Opt) (protect : Byte) (a : Option Bytes) : McReq :=
  { cdh := cdh, rpHash := rp, rpId := [0x72], user := u, alg := ES256, exclude := [], rk := rk, uv := .absent, up := .absent,
    pinAuth := a, proto := a.map fun _ => 1, hmacSecret := false, protect := protect, credBlob := none, lbk := false }
def mc (rp : Bytes) (u : User) (rk : Opt) (protect : Byte) (a : Option Bytes) : Req := .mc (.ok (mcReq rp u rk protect a))
/-- getAssertion. -/
def gaReq (rp : Bytes) (allow : List Bytes) (up : Opt) (a : Option Bytes) : GaReq :=
  { rpHash := rp, cdh := cdh, allow := allow, up := up, uv := .absent, rk := .absent, pinAuth := a, proto := a.map fun _ => 1,
    hs := none, lbk := false, credBlob := false }
def ga (rp : Bytes) (allow : List Bytes) (up : Opt) (a : Option Bytes) : Req := .ga (.ok (gaReq rp allow up a))
/-- credentialManagement with the current token. -/
def cm (sub : Byte) (rp cid : Bytes) : Req := .cm (.ok
  { sub := sub, params := [], rpHash := rp, cid := cid, user := user1, proto := 1, pinAuth := auth [sub] })
/-- Circumstances with another nonce. -/
def envN (t : UInt32) (n : Byte) : In := { env t with rndNonce := List.replicate 16 n }
/-- A history whose commands have their own nonces. -/
def histN (l : List (UInt32 × Byte × Req)) : List (Op × Env) := l.map fun p => (.cbor (envN p.1 p.2.1) p.2.2, fine)

/-- The responses of a history. -/
def resps (s : St) (ops : List (Op × Env)) : List (Option Resp) :=
  (run ext s ops).2.map fun o => match o with
    | .resp a => some a
    | _ => none
/-- The UV flags of the responses that have one. -/
def uvs (s : St) (ops : List (Op × Env)) : List (Option Bool) :=
  (run ext s ops).2.map fun o => match o with
    | .resp (.mc m) => some (m.ad.flags &&& 0x04 != 0)
    | .resp (.ga g) => some (g.ad.flags &&& 0x04 != 0)
    | _ => none

theorem sized : ∀ b, (ext.sha b).length = 32 := by
  intro b
  show (sha b).length = 32
  unfold sha
  simp

end Verif.Ctap.Toy
