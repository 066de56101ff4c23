import Verif.Base.Storage
/-
CBOR as a host reads it (RFC 8949), for the properties about the responses of the FIDO applet: data
items and a decoder, written without looking at how the device writes them.
-/
namespace Verif.Spec.Cbor

/-- A data item. -/
inductive Val where
  | int (v : Int)
  | bytes (b : Bytes)
  | text (b : Bytes)
  | bool (b : Bool)
  | arr (l : List Val)
  | map (l : List (Val × Val))

/-- Big-endian number. -/
def be : Bytes → Nat
  | [] => 0
  | b :: t => b.toNat * 256 ^ t.length + be t

/-- The first `n` bytes and what follows them, if there are so many. -/
def cut (n : Nat) (b : Bytes) : Option (Bytes × Bytes) := if n ≤ b.length then some (b.take n, b.drop n) else none

/-- The argument of an initial byte: its low five bits, or the 1, 2, 4 or 8 bytes that follow
(RFC 8949, section 3). -/
def arg (low : Nat) (b : Bytes) : Option (Nat × Bytes) :=
  if low < 24 then some (low, b)
  else if low = 24 then (cut 1 b).map fun p => (be p.1, p.2)
  else if low = 25 then (cut 2 b).map fun p => (be p.1, p.2)
  else if low = 26 then (cut 4 b).map fun p => (be p.1, p.2)
  else if low = 27 then (cut 8 b).map fun p => (be p.1, p.2)
  else none

mutual
/-- One data item and what follows it; `fuel` bounds the nesting and the number of items. -/
def item : Nat → Bytes → Option (Val × Bytes)
  | 0, _ => none
  | _ + 1, [] => none
  | fuel + 1, h :: b =>
    match arg (h.toNat % 32) b with
    | none => none
    | some (n, b) =>
      match h.toNat / 32 with
      | 0 => some (.int n, b)
      | 1 => some (.int (-1 - n), b)
      | 2 => (cut n b).map fun p => (.bytes p.1, p.2)
      | 3 => (cut n b).map fun p => (.text p.1, p.2)
      | 4 => (items fuel n b).map fun p => (.arr p.1, p.2)
      | 5 => (pairs fuel n b).map fun p => (.map p.1, p.2)
      | 7 => if h = 0xF4 then some (.bool false, b) else if h = 0xF5 then some (.bool true, b) else none
      | _ => none
/-- `n` data items. -/
def items : Nat → Nat → Bytes → Option (List Val × Bytes)
  | _, 0, b => some ([], b)
  | 0, _ + 1, _ => none
  | fuel + 1, n + 1, b =>
    match item fuel b with
    | none => none
    | some (v, b) => (items fuel n b).map fun p => (v :: p.1, p.2)
/-- `n` pairs of data items. -/
def pairs : Nat → Nat → Bytes → Option (List (Val × Val) × Bytes)
  | _, 0, b => some ([], b)
  | 0, _ + 1, _ => none
  | fuel + 1, n + 1, b =>
    match item fuel b with
    | none => none
    | some (k, b) =>
      match item fuel b with
      | none => none
      | some (v, b) => (pairs fuel n b).map fun p => ((k, v) :: p.1, p.2)
end

/-- The message is the encoding of exactly one data item, this one. -/
def Decodes (b : Bytes) (v : Val) : Prop := item (2 * b.length) b = some (v, [])

/-- The text of a string of ASCII characters. -/
def str (s : String) : Bytes := s.toList.map fun c => UInt8.ofNat c.toNat

end Verif.Spec.Cbor
