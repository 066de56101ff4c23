import Verif.Spec.Oath
/-
Vocabulary for C99: the access code of the OATH applet and the session it guards. The device is seen as
three things: the access code on flash, the challenge the next answer is checked against, and whether
the session is open. What each operation does to them is said here in terms of the bytes sent and the
answer received.
-/
namespace Verif.Spec.OathCode
open Verif.Oath Verif.Spec.Oath

/-- The session. `code`: `some []` no access code is set, `some k` the code is `k`, `none` there is no
usable file. -/
structure Sess where
  code : Option Bytes
  chal : Bytes
  isOpen : Bool
  deriving DecidableEq, Repr

/-- The session of a device. -/
def sess (s : St) : Sess := ⟨s.flash.oath.bind (·.key), s.ram.authChal, s.ram.validated⟩

/-- A closed session with the challenge of a device that has just got power: eight zero bytes. -/
def Sess.fresh (code : Option Bytes) : Sess := ⟨code, [0, 0, 0, 0, 0, 0, 0, 0], false⟩

/-- SET CODE with the new code `k` of 16 bytes, a challenge of the host and the response to it. -/
def CodeReq (d k c resp : Bytes) : Prop :=
  k.length = 16 ∧ c.length ≤ 255 ∧ resp.length = 20 ∧
    ∃ alg : Byte, d = [0x73, 17, alg] ++ (k ++ (chalTlv c ++ ([0x75, 20] ++ resp)))

/-- SET CODE without a code: it removes the code that is set. -/
def ClearReq (d : Bytes) : Prop := d = [] ∨ ∃ rest, d = 0x73 :: 0x00 :: rest

/-- SET CODE. -/
def IsSet (i : In) : Prop := i.c.ins = 0x03
/-- VALIDATE. -/
def IsValidate (i : In) : Prop := i.c.ins = 0xA3
/-- SELECT by name. -/
def IsSelect (i : In) : Prop := i.c.ins = 0xA4 ∧ i.c.p1 = 4

instance (i : In) : Decidable (IsSet i) := inferInstanceAs (Decidable (_ = _))
instance (i : In) : Decidable (IsValidate i) := inferInstanceAs (Decidable (_ = _))
instance (i : In) : Decidable (IsSelect i) := inferInstanceAs (Decidable (_ ∧ _))

/-- An answer with status 9000. -/
def Ok (out : Out) : Prop := ∃ d, out = .reply (.resp d SW.ok)

/-- The answer of SELECT that shows challenge `c` to the host. -/
def Shows (out : Out) (c : Bytes) : Prop :=
  ∃ hd, out = .reply (.resp ([0x79, 3, 6, 0, 0, 0x71, 8] ++ hd ++ [0x74, 8] ++ c ++ [0x7B, 1, 1]) SW.ok)

/-- SET CODE in an open session. Answered with 9000 it has removed the code, or set the code the
request carries, and then the response in the request is the HMAC of its challenge under that code.
Answered otherwise the code is as before, and so is everything else unless a file-system call failed. -/
def SetStep (x : Ext) (failing : Prop) (g : Sess) (d : Bytes) (out : Out) (g' : Sess) : Prop :=
  (out = .reply (.sw SW.ok) ∧ ClearReq d ∧ g' = { g with code := some [], isOpen := true }) ∨
  (out = .reply (.sw SW.ok) ∧ (∃ k c, CodeReq d k c (x.hmac 1 k c) ∧ g' = { g with code := some k, isOpen := false })) ∨
  (¬ Ok out ∧ g' = g) ∨
  (¬ Ok out ∧ (failing ∨ g.code = none) ∧ g'.code = g.code ∧ g'.chal = g.chal)

/-- VALIDATE. It opens the session exactly for the HMAC of the current challenge under the access code,
and is then answered with the HMAC of the host's challenge under the access code. -/
def ValidateStep (x : Ext) (g : Sess) (d : Bytes) (out : Out) (g' : Sess) : Prop :=
  (∃ k c, g.code = some k ∧ k ≠ [] ∧ ValidateReq d (x.hmac 1 k g.chal) c ∧
    out = .reply (.resp ([0x75, 20] ++ x.hmac 1 k c) SW.ok) ∧ g' = { g with isOpen := true }) ∨
  (∃ k resp c, g.code = some k ∧ k ≠ [] ∧ ValidateReq d resp c ∧ resp ≠ x.hmac 1 k g.chal ∧
    out = .reply (.sw SW.wrongData) ∧ g' = { g with isOpen := false }) ∨
  (¬ Ok out ∧ g' = g)

/-- SELECT. Without an access code it opens the session; with one it draws a challenge, shows it to the
host and keeps it for VALIDATE. -/
def SelectStep (g : Sess) (i : In) (out : Out) (g' : Sess) : Prop :=
  (g.code = some [] ∧ Ok out ∧ g' = { g with isOpen := true }) ∨
  (∃ k, g.code = some k ∧ k ≠ [] ∧ Shows out i.rnd ∧ g' = { g with chal := i.rnd }) ∨
  (¬ Ok out ∧ g' = g)

/-- What an operation does to the session, given what was observed. `failing`: file-system calls may
return errors. A loss of power leaves a fresh session with the same code; only an installation can lose
the code then. -/
def SessStep (x : Ext) (failing : Prop) (g : Sess) (op : Op) (out : Out) (g' : Sess) : Prop :=
  match op with
  | .apdu i =>
    if out = .cut then g' = .fresh g.code
    else if IsSet i then
      (g.isOpen = true ∧ SetStep x failing g i.c.data out g') ∨
      (g.isOpen = false ∧ out = .reply (.sw SW.security) ∧ g' = g)
    else if IsValidate i then ValidateStep x g i.c.data out g'
    else if IsSelect i then SelectStep g i out g'
    else g' = g
  | .install reset _ =>
    g'.isOpen = false ∧ (if out = .cut then g'.chal = (Sess.fresh none).chal else g'.chal = g.chal) ∧
      (g'.code = g.code ∨ (g'.code = some [] ∧ (reset = true ∨ g.code = none ∨ failing))) ∧
      (reset = true → out = .reply (.sw SW.ok) → g'.code = some [])
  | .powerOff => out = .none ∧ g' = { g with isOpen := false }
  | .boot => out = .none ∧ g' = .fresh g.code
  | _ => if out = .cut then g' = .fresh g.code else g' = g

/-! ### What the host knows -/

/-- The data of an answer with status 9000. -/
def okData : Out → Option Bytes
  | .reply (.resp d sw) => if sw = SW.ok then some d else none
  | _ => none

/-- The data of SET CODE asks for the removal of the code. -/
def asksClear (d : Bytes) : Bool := d.isEmpty || d.take 2 == [0x73, 0x00]

/-- The access code and the challenge as computed from the commands and their answers alone, starting
with `k` and `c`: SET CODE answered with 9000 sets the 16 bytes of its request, or removes the code;
SELECT of a device with a code shows the challenge in the eight bytes before the last three; a loss of
power forgets the challenge. -/
def track (g : Option Bytes × Bytes) (e : Op × Out) : Option Bytes × Bytes :=
  if e.2 = .cut then (g.1, [0, 0, 0, 0, 0, 0, 0, 0])
  else match e.1 with
    | .boot => (g.1, [0, 0, 0, 0, 0, 0, 0, 0])
    | .apdu i =>
      match okData e.2 with
      | none => g
      | some d =>
        if IsSet i then (some (if asksClear i.c.data then [] else (i.c.data.drop 3).take 16), g.2)
        else if IsSelect i ∧ g.1 ≠ some [] then (g.1, (d.drop (d.length - 11)).take 8)
        else g
    | _ => g

/-- The operations of a history with what was observed. -/
def log (x : Ext) (s : St) (h : List (Op × Env)) : List (Op × Out) := (h.map (·.1)).zip (run x s h).2

/-- No factory reset of the applet, file-system calls do not fail (power may be lost at any time), and
random challenges have eight bytes. -/
def Calm (h : List (Op × Env)) : Prop :=
  ∀ p ∈ h, (∀ rnd, p.1 ≠ .install true rnd) ∧ p.2.all cutsOnly ∧ ∀ i, p.1 = .apdu i → i.rnd.length = 8

end Verif.Spec.OathCode
