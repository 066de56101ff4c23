import Verif.Spec.Piv
import Verif.Spec.Key
/-
The use of PIV keys: the template of GENERAL AUTHENTICATE, what a key computes, and the public key given out.
-/
namespace Verif.Spec.Piv
open Verif.Piv Verif.KeyFile Verif.Spec.Key
open Verif.Key (KeyMat)

/-- The key reference of a slot (SP 800-73-4 Part 1 Table 4b). -/
def slotId : Slot → Byte
  | .k9A => 0x9A
  | .k9C => 0x9C
  | .k9D => 0x9D
  | .k9E => 0x9E
  | .k82 => 0x82
  | .k83 => 0x83

/-- An element of a template: its tag, the encoding of its length, its value. -/
structure Item where
  tag : Byte
  len : Bytes
  val : Bytes

def Item.enc (t : Item) : Bytes := [t.tag] ++ t.len ++ t.val

/-- The tag is one of witness (80), challenge (81), response (82), exponentiation (85); the length is encoded in any
legal way. -/
def Item.Legal (t : Item) : Prop := t.tag ∈ ([0x80, 0x81, 0x82, 0x85] : List Byte) ∧ LenEnc t.val.length t.len

/-- The data are a dynamic authentication template (7C) with these elements. -/
def Template (data : Bytes) (l : List Item) : Prop :=
  (∀ t ∈ l, t.Legal) ∧ ∃ n len, LenEnc n len ∧ n ≤ (l.flatMap Item.enc).length ∧ data = [0x7C] ++ len ++ l.flatMap Item.enc

/-- The value of the last element with a tag. -/
def valueOf (tag : Byte) : List Item → Option Bytes
  | [] => none
  | t :: l => (valueOf tag l).or (if t.tag = tag then some t.val else none)

/-- The template asks for a signature (or RSA decryption) of `ch`: a challenge, an empty response, no witness. -/
def AsksSign (l : List Item) (ch : Bytes) : Prop :=
  valueOf 0x81 l = some ch ∧ ch ≠ [] ∧ valueOf 0x82 l = some [] ∧ valueOf 0x80 l = none

/-- The template asks for a key agreement with the point `pt`: an exponentiation, an empty response, no challenge,
no empty witness. -/
def AsksEcdh (l : List Item) (pt : Bytes) : Prop :=
  valueOf 0x85 l = some pt ∧ pt ≠ [] ∧ valueOf 0x82 l = some [] ∧ valueOf 0x81 l = none ∧ valueOf 0x80 l ≠ some []

/-- Zeros on the left up to `n` bytes. -/
def leftPad (n : Nat) (d : Bytes) : Bytes := List.replicate (n - d.length) 0 ++ d

/-- What a key of type `t` makes of the challenge: RSA keys raise a challenge of the size of the modulus to the private
exponent; the short Weierstrass curves sign it as a number, which must not be longer than the order; the other curves
sign it as it is. -/
def Computes (x : Ext) (t : KTy) (k : KeyMat) (ch sg : Bytes) : Prop :=
  if t.isRsa then ch.length = x.cr.pub t ∧ x.cr.rsaPrivate k ch = some sg
  else if t.isWei then
    ch.length ≤ x.cr.priv t ∧ ∃ v, x.cr.sign t k (leftPad (x.cr.priv t) ch) = some v ∧ sg = x.cr.ansi (x.cr.priv t) v
  else x.cr.sign t k ch = some sg

/-- The secret a key of type `t` agrees on with a point, whose first byte tells its form on the short Weierstrass
curves. -/
def AgreesOn (x : Ext) (t : KTy) (k : KeyMat) (pt z : Bytes) : Prop :=
  if t.isWei then ∃ b q, pt = b :: q ∧ q.length = x.cr.pub t ∧ x.cr.ecdh t k q = some z
  else pt.length = x.cr.pub t ∧ x.cr.ecdh t k pt = some z

/-- The answer 7C { 82 { v } }, with lengths of three bytes for RSA keys and one byte for others; `n` is the length. -/
def answer (rsa : Bool) (n : Nat) (v : Bytes) : Bytes :=
  if rsa then [0x7C, 0x82, hi (n + 4), lo (n + 4), 0x82, 0x82, hi n, lo n] ++ v
  else [0x7C, lo (n + 2), 0x82, lo n] ++ v

/-- GENERAL AUTHENTICATE for a slot. -/
def IsUse (i : In) (sl : Slot) : Prop := i.c.ins = 0x87 ∧ i.c.p2 = slotId sl

/-- The key of a slot: material and metadata, of a real type. -/
def HasKey (f : Flash) (sl : Slot) (k : KeyMat) (m : Meta) : Prop := f.keys sl = some ⟨k, some m⟩ ∧ m.type ≠ .none

/-- The operation may replace the key in the slot: GENERATE or IMPORT for it, RESET, a factory reset. -/
def Rekeys (sl : Slot) : Op → Prop
  | .apdu i => (i.c.ins = 0x47 ∨ i.c.ins = 0xFE) ∧ i.c.p2 = slotId sl ∨ i.c.ins = 0xFB
  | .factory _ => True
  | .deselect => False
  | .boot _ => False

/-- GENERATE ASYMMETRIC KEY PAIR for a slot with an algorithm and policies. -/
def IsGenerate (i : In) (sl : Slot) (alg : Byte) (ps : List HostPolicy) : Prop :=
  i.c.cla = 0 ∧ i.c.ins = 0x47 ∧ i.c.p1 = 0 ∧ i.c.p2 = slotId sl ∧ (∀ p ∈ ps, p.valid) ∧
  ∃ n, i.c.data = [0xAC, n, 0x80, 1, alg] ++ ps.flatMap HostPolicy.enc

/-- The algorithm identifier names the key type, under an algorithm configuration. -/
def Names (a : Alg) (id : Byte) (t : KTy) : Prop :=
  (id = 0x11 ∧ t = .secp256r1) ∨ (id = 0x14 ∧ t = .secp384r1) ∨ (id = 0x07 ∧ t = .rsa2048) ∨
  (a.enabled ≠ 0 ∧ id ∉ ([0x11, 0x14, 0x07, 0x00, 0x03] : List Byte) ∧
    ((id = a.ed25519 ∧ t = .ed25519) ∨ (id = a.rsa3072 ∧ t = .rsa3072) ∨ (id = a.rsa4096 ∧ t = .rsa4096) ∨
     (id = a.x25519 ∧ t = .x25519) ∨ (id = a.secp256k1 ∧ t = .secp256k1) ∨ (id = a.sm2 ∧ t = .sm2)))

/-- The identifier a key type is shown with. -/
def algByte (a : Alg) : KTy → Byte
  | .secp256r1 => 0x11
  | .secp384r1 => 0x14
  | .rsa2048 => 0x07
  | .rsa3072 => a.rsa3072
  | .rsa4096 => a.rsa4096
  | .ed25519 => a.ed25519
  | .x25519 => a.x25519
  | .secp256k1 => a.secp256k1
  | .sm2 => a.sm2
  | .tdea => 0x03
  | .secp521r1 | .none => 0

/-- IMPORT ASYMMETRIC KEY for a slot. -/
def IsImport (i : In) (sl : Slot) (alg : Byte) (d : Bytes) : Prop :=
  i.c.cla = 0 ∧ i.c.ins = 0xFE ∧ i.c.p1 = alg ∧ i.c.p2 = slotId sl ∧ i.c.data = d

/-- VERIFY of the PIN with these data. -/
def IsVerify (i : In) (d : Bytes) : Prop :=
  i.c.cla = 0 ∧ i.c.ins = 0x20 ∧ i.c.p1 = 0 ∧ i.c.p2 = 0x80 ∧ i.c.data = d ∧ d.length = 8

/-- Touch is not asked for, or given. -/
def TouchGiven (i : In) (m : Meta) : Prop := m.touch = 2 ∨ m.touch = 3 → i.nfc = true ∨ i.present = true

/-- The point of a public key as PIV writes it. -/
def point (x : Ext) (t : KTy) (k : KeyMat) : Bytes :=
  if t.isWei then 0x04 :: x.cr.pubOf t k
  else if t = .x25519 then x.cr.swap (x.cr.pubOf t k)
  else x.cr.pubOf t k

/-- The elements of a public key: modulus (81) and exponent (82), or a point (86). -/
def PubElems (x : Ext) (t : KTy) (k : KeyMat) (d : Bytes) : Prop :=
  if t.isRsa then ∃ a b, Tlv [0x81] (x.cr.pubOf t k) a ∧ Tlv [0x82] k.e b ∧ d = a ++ b
  else Tlv [0x86] (point x t k) d

/-- The public key of `k` under a tag. -/
def PublicKey (x : Ext) (tag : Bytes) (t : KTy) (k : KeyMat) (d : Bytes) : Prop := ∃ e, PubElems x t k e ∧ Tlv tag e d

/-- Public keys are as long as the tables say, and those of the curves fit into one-byte lengths. -/
structure PubSizes (x : Ext) : Prop where
  len : ∀ t k, (x.cr.pubOf t k).length = x.cr.pub t
  swap : ∀ d, (x.cr.swap d).length = d.length
  ecc : ∀ t, t.isEcc = true → t ≠ .secp521r1 → x.cr.pub t ≤ 124
  rsa : ∀ t, t.isRsa = true → x.cr.pub t ≤ 512

/-- A key type PIV knows; an RSA key has an exponent of four bytes. -/
def PivKey (t : KTy) (k : KeyMat) : Prop :=
  (t.isEcc = true ∨ t.isRsa = true) ∧ t ≠ .secp521r1 ∧ (t.isRsa = true → k.e.length = 4)

end Verif.Spec.Piv
