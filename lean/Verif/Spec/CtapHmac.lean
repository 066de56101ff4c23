import Verif.Spec.Ctap
/-
The hmac-secret extension of getAssertion: what the platform sends and what it is to get.
-/
namespace Verif.Ctap

/-- The secret of the credential `c` on a device with the secret `he`: one for use with user verification and one for use without. -/
def credSecret (x : Ext) (he c : Bytes) (uv : Bool) : Bytes :=
  x.hmac (if uv then he.map (~~~ ·) else he) ((Cid.nonce c).take 16)

/-- The outputs for one salt of 32 bytes, or two. -/
def saltOutputs (x : Ext) (secret salts : Bytes) : Bytes :=
  x.hmac secret (salts.take 32) ++ (if salts.length = 64 then x.hmac secret (salts.drop 32) else [])

/-- The platform shares the secret `z` with the device, whose key-agreement key is `ka`, and sent `salts` under it,
authenticated. -/
structure Salted (x : Ext) (ka : Nat) (h : HmacSecret) (z salts : Bytes) : Prop where
  shared : decapsulate x ka h.key h.proto = some z
  auth : Authenticates x (z.take 32) (h.salt.take h.saltLen) h.auth h.proto
  sent : decrypt x z (h.salt.take h.saltLen) h.proto = some salts
  len : salts.length = 32 ∨ salts.length = 64

/-- The request for outputs is as the specification wants it: a protocol of the specification, one salt or two, encrypted
and authenticated. -/
def SaltsOk (x : Ext) (ka : Nat) (h : HmacSecret) : Prop :=
  (h.proto = 1 ∧ (h.saltLen = 32 ∨ h.saltLen = 64) ∨ h.proto = 2 ∧ (h.saltLen = 48 ∨ h.saltLen = 80)) ∧
    ∃ z salts, Salted x ka h z salts

/-- What is assumed of the cipher and the hash: decryption inverts encryption and keeps lengths, HMACs have 32 bytes. -/
structure Ext.Lawful (x : Ext) : Prop where
  inv : ∀ k iv p, p.length % 16 = 0 → x.cbcDec k iv (x.cbcEnc k iv p) = p
  len : ∀ k iv c, (x.cbcDec k iv c).length = c.length
  hmac : ∀ k m, (x.hmac k m).length = 32

end Verif.Ctap
