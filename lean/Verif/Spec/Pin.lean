import Verif.Model.Pin
/-
What a user expects of a PIN with a retry counter, independently of `pin.c`.
-/
namespace Verif.Spec.Pin

/-- A PIN with `left` of `max` attempts remaining and a session flag. -/
structure Abs where
  pin : Bytes
  left : Nat
  max : Nat
  unlocked : Bool
  deriving DecidableEq, Repr

inductive Res where
  | accepted
  | refused (left : Nat)
  | badLength
  | report (left : Nat)
  | done
  deriving DecidableEq, Repr

inductive Call where
  | verify (candidate : Bytes)
  | change (new : Bytes)
  | ask
  | logout
  deriving DecidableEq, Repr

/-- `lo`/`hi`: permitted PIN lengths. -/
def step (lo hi : Nat) (a : Abs) : Call → Abs × Res
  | .verify c =>
    if c.length < lo ∨ hi < c.length then ({ a with unlocked := false }, .badLength)
    else if a.left = 0 then ({ a with unlocked := false }, .refused 0)
    else if c = a.pin then ({ a with left := a.max, unlocked := true }, .accepted)
    else ({ a with left := a.left - 1, unlocked := false }, .refused (a.left - 1))
  | .change n =>
    if n.length < lo ∨ hi < n.length then (a, .badLength)
    else ({ a with pin := n, left := a.max, unlocked := false }, .done)
  | .ask => (a, .report (if a.pin = [] then 0 else a.left))
  | .logout => ({ a with unlocked := false }, .done)

def run (lo hi : Nat) (a : Abs) : List Call → Abs × List Res
  | [] => (a, [])
  | c :: cs =>
    let (a', r) := step lo hi a c
    let (a'', rs) := run lo hi a' cs
    (a'', r :: rs)

end Verif.Spec.Pin

/-! ### Vocabulary relating `pin.c` calls to the abstract PIN -/
namespace Verif.Pin

/-- The assumption on the external `memcmp_s`: its "different" result is neither 0 nor 1
(canokey-crypto returns -1).  `/repo/src/pin.c:32` subtracts it from a 0/1 flag. -/
def Cfg.Ok (cfg : Cfg) : Prop := cfg.neq ≠ 0 ∧ cfg.neq ≠ 1

/-- The candidate actually presented by a verify call: the first `len` bytes at the pointer. -/
def candidate (buf : Bytes) (len : UInt8) : Bytes := buf.take len.toNat

/-- The length check of `pin_verify`/`pin_update` passes. -/
def lenOk (cfg : Cfg) (len : UInt8) : Prop := cfg.minLen ≤ len ∧ len ≤ cfg.maxLen

/-- The caller's buffer really holds `len` bytes. -/
def Op.bufOk : Op → Prop
  | .verify _ b l => l.toNat ≤ b.length
  | .update b l => l.toNat ≤ b.length
  | _ => True

/-- Calls that always leave the PIN unvalidated: verify (unless it succeeds), a change of PIN with
a permitted length, and the end of the session. -/
def Op.closes (cfg : Cfg) : Op → Prop
  | .verify .. => True
  | .update _ l => lenOk cfg l
  | .powerOff => True
  | _ => False

/-- Stored PINs fit the 64-byte local buffer (`PIN_MAX_LENGTH`). -/
def Short (f : Flash) : Prop := ∀ p, f = some p → p.data.length ≤ 64

def Op.short : Op → Prop
  | .create b _ => b.length ≤ 64
  | _ => True

open Verif.Spec.Pin (Abs Call Res)

/-- The abstract call made by an operation (`create`/`clear` are not part of the user-facing
protocol covered by the refinement). -/
def Op.call : Op → Option Call
  | .verify _ b l => some (.verify (candidate b l))
  | .update b l => some (.change (candidate b l))
  | .getRetries => some .ask
  | .powerOff => some .logout
  | .create .. => none
  | .clear => none

/-- What the abstract user sees of an output. -/
def Out.res : Out → Option Res
  | .verified .ok _ => some .accepted
  | .verified .authFail (some n) => some (.refused n.toNat)
  | .verified .lengthInvalid _ => some .badLength
  | .rc .ok => some .done
  | .rc .lengthInvalid => some .badLength
  | .retries (some n) => some (.report n)
  | .none => some .done
  | _ => Option.none

/-- Concrete state `s` represents abstract state `a`. -/
def Rel (s : St) (a : Abs) : Prop :=
  ∃ c d : UInt8, s.flash = some ⟨a.pin, some c, some d⟩ ∧ a.pin.length ≤ 64 ∧ a.left = c.toNat ∧
    a.max = d.toNat ∧ s.ram.validated = a.unlocked

end Verif.Pin
