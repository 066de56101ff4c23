import Verif.Spec.Pgp
/-
The data objects of the OpenPGP card as a host writes and reads them (OpenPGP card specification 3.4, section 4.4):
a decoder for BER-TLV, which object is found where in which response, and what is to be read back.
-/
namespace Verif.Spec.PgpData
open Verif.Pgp Verif.Spec.Pgp

/-! ### BER-TLV -/

/-- A tag of one or two bytes, and the rest. -/
def tlvTag : Bytes → Option (Nat × Bytes)
  | [] => none
  | b :: t =>
    if b &&& 0x1F = 0x1F then
      match t with
      | c :: t => if c < 0x80 then some (b.toNat * 256 + c.toNat, t) else none
      | [] => none
    else some (b.toNat, t)

/-- A length of one, two or three bytes, and the rest. -/
def tlvSize : Bytes → Option (Nat × Bytes)
  | [] => none
  | b :: t =>
    if b < 0x80 then some (b.toNat, t)
    else if b = 0x81 then
      match t with
      | c :: t => some (c.toNat, t)
      | _ => none
    else if b = 0x82 then
      match t with
      | c :: d :: t => some (c.toNat * 256 + d.toNat, t)
      | _ => none
    else none

/-- The objects of a byte string, at most `n` of them. -/
def tlvs : Nat → Bytes → Option (List (Nat × Bytes))
  | _, [] => some []
  | 0, _ => none
  | n + 1, b =>
    match tlvTag b with
    | none => none
    | some (t, b) =>
      match tlvSize b with
      | none => none
      | some (l, b) => if l ≤ b.length then (tlvs n (b.drop l)).map ((t, b.take l) :: ·) else none

/-- The byte string as a sequence of data objects; nothing is left over. -/
def decode (b : Bytes) : Option (List (Nat × Bytes)) := tlvs b.length b

/-- The first object with the tag. -/
def find (t : Nat) (b : Bytes) : Option Bytes := (decode b).bind fun l => (l.find? fun p => p.1 = t).map (·.2)

/-- An object inside of objects. -/
def path (ts : List Nat) (b : Bytes) : Option Bytes := ts.foldl (fun o t => o.bind (find t)) (some b)

/-! ### Objects -/

/-- The objects that are written with PUT DATA and read with GET DATA, but for the certificates. -/
inductive Obj where
  | name | login | lang | sex | url | pw
  | alg (k : K) | fp (k : K) | date (k : K) | uif (k : K)
  /-- the fingerprints of three certification authorities, numbered like the keys -/
  | ca (k : K)
  deriving DecidableEq

/-- The place of a key among three. -/
def nth : K → Nat
  | .sig => 0
  | .dec => 1
  | .aut => 2

/-- The tag for PUT DATA. -/
def Obj.tag : Obj → Nat
  | .name => 0x5B
  | .login => 0x5E
  | .lang => 0x5F2D
  | .sex => 0x5F35
  | .url => 0x5F50
  | .pw => 0xC4
  | .alg k => 0xC1 + nth k
  | .fp k => 0xC7 + nth k
  | .ca k => 0xCA + nth k
  | .date k => 0xCE + nth k
  | .uif k => 0xD6 + nth k

/-- The tag for GET DATA of the object or of the object that contains it: login data and URL are read on their own,
the name, the languages and the sex in the cardholder related data, the rest in the application related data. -/
def Obj.request : Obj → Nat
  | .login => 0x5E
  | .url => 0x5F50
  | .name | .lang | .sex => 0x65
  | _ => 0x6E

/-- Where the object is in the response. -/
def Obj.inside : Obj → Bytes → Option Bytes
  | .login, b | .url, b => some b
  | .name, b => path [0x65, 0x5B] b
  | .lang, b => path [0x65, 0x5F2D] b
  | .sex, b => path [0x65, 0x5F35] b
  | .pw, b => (path [0x6E, 0x73, 0xC4] b).map (·.take 1)
  | .alg k, b => path [0x6E, 0x73, 0xC1 + nth k] b
  | .fp k, b => (path [0x6E, 0x73, 0xC5] b).map fun v => (v.drop (20 * nth k)).take 20
  | .ca k, b => (path [0x6E, 0x73, 0xC6] b).map fun v => (v.drop (20 * nth k)).take 20
  | .date k, b => (path [0x6E, 0x73, 0xCD] b).map fun v => (v.drop (4 * nth k)).take 4
  | .uif k, b => path [0x6E, 0x73, 0xD6 + nth k] b

/-- The algorithm attributes that a key may have: RSA of 2048, 3072 and 4096 bits, and the curves NIST P-256, secp256k1,
NIST P-384, NIST P-521, SM2 (for ECDSA, or for ECDH with the decryption key), Ed25519 (not for the decryption key) and
X25519 (for the decryption key only). -/
def offered (k : K) : List Bytes :=
  let ec : Byte := if k = .dec then 0x12 else 0x13
  [[0x01, 0x08, 0x00, 0x00, 0x20, 0x02], [0x01, 0x0C, 0x00, 0x00, 0x20, 0x02], [0x01, 0x10, 0x00, 0x00, 0x20, 0x02],
   [ec, 0x2A, 0x86, 0x48, 0xCE, 0x3D, 0x03, 0x01, 0x07], [ec, 0x2B, 0x81, 0x04, 0x00, 0x0A],
   [ec, 0x2B, 0x81, 0x04, 0x00, 0x22], [ec, 0x2B, 0x81, 0x04, 0x00, 0x23],
   if k = .dec then [0x12, 0x2B, 0x06, 0x01, 0x04, 0x01, 0x97, 0x55, 0x01, 0x05, 0x01]
   else [0x16, 0x2B, 0x06, 0x01, 0x04, 0x01, 0xDA, 0x47, 0x0F, 0x01],
   [ec, 0x06, 0x08, 0x2A, 0x81, 0x1C, 0xCF, 0x55, 0x01, 0x82, 0x2D]]

/-- `v` is to be read after `d` was written. Most objects are read as they were written. A user interaction flag is
followed by the features of the device (20: a button). Algorithm attributes are normalised: they name the same size of an
RSA key, or the same curve. -/
def Obj.Reads (o : Obj) (d v : Bytes) : Prop :=
  match o with
  | .uif _ => ∃ b, d.head? = some b ∧ v = [b, 0x20]
  | .alg k => v ∈ offered k ∧ (v.drop 1 = d.drop 1 ∨ d.head? = some 1 ∧ v.take 3 = d.take 3)
  | _ => v = d

/-- What is left of the tries of a PIN; a PIN that is not set has none. -/
def triesLeft (p : Pin.Flash) : Option Nat := p.bind fun p => if p.data = [] then some 0 else p.ctr.map (·.toNat)

/-! ### Commands -/

/-- P1 P2. -/
def p1p2 (i : In) : Nat := i.c.p1.toNat * 256 + i.c.p2.toNat

/-- PUT DATA for the object. -/
def Writes (o : Obj) (op : Op) : Prop := ∃ i, op = .apdu i ∧ i.c.ins = 0xDA ∧ p1p2 i = o.tag

/-- PUT DATA of `d` for the object. The length of the flag for the authentication key is not checked by the card: it is
demanded here. -/
def PutsValue (o : Obj) (d : Bytes) (i : In) : Prop :=
  i.c.ins = 0xDA ∧ p1p2 i = o.tag ∧ i.c.data = d ∧ (o = .uif .aut → d ≠ [])

/-- GET DATA for the tag. -/
def Gets (t : Nat) (i : In) : Prop := i.c.ins = 0xCA ∧ p1p2 i = t

end Verif.Spec.PgpData
