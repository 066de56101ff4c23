import Verif.Base.Storage
/-
Memory accesses with undefined behaviour as an explicit outcome.
-/
namespace Verif

/-- Undefined behaviour of the C code that the model can exhibit. -/
inductive Ub where
  /-- read or write outside the bounds of an object -/
  | oob
  /-- use of an uninitialised or unspecified value -/
  | uninit
  deriving DecidableEq, Repr

/-- A C computation on memory: a value, or undefined behaviour. -/
abbrev C (α : Type) := Except Ub α

instance {α : Type} [DecidableEq α] : DecidableEq (C α)
  | .ok a, .ok b => if h : a = b then isTrue (h ▸ rfl) else isFalse (fun e => h (by cases e; rfl))
  | .error a, .error b =>
    if h : a = b then isTrue (h ▸ rfl) else isFalse (fun e => h (by cases e; rfl))
  | .ok _, .error _ => isFalse (fun e => by cases e)
  | .error _, .ok _ => isFalse (fun e => by cases e)

/-- `p[i]`. -/
def rd (b : Bytes) (i : Nat) : C Byte :=
  match b[i]? with
  | some x => .ok x
  | none => .error .oob

/-- `memcpy(dst, b + off, n)` as a read. -/
def rdRange (b : Bytes) (off n : Nat) : C Bytes :=
  if off + n ≤ b.length then .ok ((b.drop off).take n) else .error .oob

/-- `memcpy(b + off, d, len(d))` as a write into the buffer `b`. -/
def wrRange (b : Bytes) (off : Nat) (d : Bytes) : C Bytes :=
  if off + d.length ≤ b.length then .ok (b.take off ++ d ++ b.drop (off + d.length))
  else .error .oob

/-- `memset(b + off, v, n)`/ a single store. -/
def wr (b : Bytes) (i : Nat) (v : Byte) : C Bytes :=
  if i < b.length then .ok (b.set i v) else .error .oob

/-- Big-endian 16-bit value of two bytes: `(a << 8) | b`. -/
def be16 (a b : Byte) : Nat := a.toNat * 256 + b.toNat

@[simp] theorem ok_bind {α β : Type} (a : α) (f : α → C β) :
    ((Except.ok a : C α) >>= f) = f a := rfl
@[simp] theorem error_bind {α β : Type} (e : Ub) (f : α → C β) :
    ((Except.error e : C α) >>= f) = Except.error e := rfl
@[simp] theorem pure_eq_ok {α : Type} (a : α) : (pure a : C α) = Except.ok a := rfl

theorem rd_ok {b : Bytes} {i : Nat} (h : i < b.length) : rd b i = .ok b[i] := by
  simp [rd, List.getElem?_eq_getElem h]

theorem rdRange_ok {b : Bytes} {off n : Nat} (h : off + n ≤ b.length) :
    rdRange b off n = .ok ((b.drop off).take n) := by simp [rdRange, h]

theorem wrRange_ok {b : Bytes} {off : Nat} {d : Bytes} (h : off + d.length ≤ b.length) :
    wrRange b off d = .ok (b.take off ++ d ++ b.drop (off + d.length)) := by simp [wrRange, h]

/-- Statements about all 256 byte values are decidable (used for bit-mask facts). -/
instance decForallByte (P : Byte → Prop) [DecidablePred P] : Decidable (∀ b, P b) :=
  decidable_of_iff (∀ i : Fin 256, P (UInt8.ofNat i.val))
    ⟨fun h b => by
      have := h ⟨b.toNat, b.toNat_lt⟩
      simpa using this, fun h i => h _⟩

end Verif
