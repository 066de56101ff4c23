import Verif.Model.Key
/-
BER-TLV lengths and the host-side encoding of imported keys, independent of the parsers.
-/
namespace Verif.Spec.Key
open Verif.Key

/-- The one-, two- and three-byte encodings of a BER-TLV length. -/
inductive LenEnc : Nat → Bytes → Prop where
  | one (n : Nat) (h : n < 128) : LenEnc n [UInt8.ofNat n]
  | two (n : Nat) (h : n < 256) : LenEnc n [0x81, UInt8.ofNat n]
  | three (n : Nat) (h : n < 65536) : LenEnc n [0x82, UInt8.ofNat (n / 256), UInt8.ofNat n]

/-- `tag, length, value`. -/
inductive Tlv (tag : Bytes) (value : Bytes) : Bytes → Prop where
  | mk (l : Bytes) (h : LenEnc value.length l) : Tlv tag value (tag ++ l ++ value)

/-- `tag, length` without a value (an entry of the OpenPGP private key template). -/
inductive TL (tag : Bytes) (n : Nat) : Bytes → Prop where
  | mk (l : Bytes) (h : LenEnc n l) : TL tag n (tag ++ l)

/-- A complete, valid policy entry: PIN policy (AA) or touch policy (AB). -/
inductive Policy : Bytes → Prop where
  | pin (v : Byte) (h : 1 ≤ v ∧ v ≤ 3) : Policy [0xAA, 0x01, v]
  | touch (v : Byte) (h : 1 ≤ v ∧ v ≤ 3) : Policy [0xAB, 0x01, v]

/-- A sequence of complete, valid policy entries. -/
inductive Policies : Bytes → Prop where
  | nil : Policies []
  | cons {a b : Bytes} (h : Policy a) (t : Policies b) : Policies (a ++ b)

/-- The parser does not touch memory outside the command data: it has an outcome. -/
def InBounds {α : Type} (m : Except Ub α) : Prop := ∃ r, m = .ok r

/-- The right-aligned big-endian number `d` in a field of `size` bytes. -/
def Padded (size : Nat) (d f : Bytes) : Prop :=
  f.length = size ∧ ∃ n, f = List.replicate n 0 ++ d

/-- One policy as the host sees it. -/
inductive HostPolicy where
  | pin (v : Byte)
  | touch (v : Byte)

def HostPolicy.valid : HostPolicy → Prop
  | .pin v => 1 ≤ v ∧ v ≤ 3
  | .touch v => 1 ≤ v ∧ v ≤ 3

def HostPolicy.enc : HostPolicy → Bytes
  | .pin v => [0xAA, 0x01, v]
  | .touch v => [0xAB, 0x01, v]

/-- The PIN policy in force after a list of policies: the last one given, else the old one. -/
def pinAfter (old : Byte) : List HostPolicy → Byte
  | [] => old
  | .pin v :: l => pinAfter v l
  | .touch _ :: l => pinAfter old l

/-- The touch policy in force after a list of policies. -/
def touchAfter (old : Byte) : List HostPolicy → Byte
  | [] => old
  | .touch v :: l => touchAfter v l
  | .pin _ :: l => touchAfter old l

end Verif.Spec.Key
