import Verif.Spec.Oath
/-
What a host is answered when it adds, deletes, renames, selects and uses OATH credentials: a table over the store as a map
from names to credentials.
-/
namespace Verif.Spec.OathTable
open Verif.Oath Verif.Spec.Oath

/-! ### Arguments: what they mean, or the status with which they are refused -/

/-- A name at the start of the data (`71`, length, 1 to 64 bytes) and what follows. `least`: fewer bytes are too few. -/
def name (least : Nat) (d : Bytes) : Except SW (Bytes × Bytes) :=
  if d.length < least then .error 0x6700 else match d with
  | t :: l :: r =>
    if t ≠ 0x71 ∨ l = 0 ∨ 64 < l then .error 0x6A80
    else if r.length < l.toNat then .error 0x6700
    else .ok (r.take l.toNat, r.drop l.toNat)
  | _ => .error 0x6700

/-- A challenge (`74`, length, 1 to 8 bytes). -/
def challenge : Bytes → Except SW Bytes
  | t :: l :: r =>
    if t ≠ 0x74 ∨ l = 0 ∨ 8 < l then .error 0x6A80
    else if r.length < l.toNat then .error 0x6700
    else .ok (r.take l.toNat)
  | _ => .error 0x6700

/-- The optional properties of a new credential (`78`, value up to 3). -/
def props : Bytes → Except SW (Byte × Bytes)
  | [] => .ok (0, [])
  | t :: r => if t ≠ 0x78 then .ok (0, t :: r) else match r with
    | [] => .error 0x6700
    | p :: r => if 3 < p then .error 0x6A80 else .ok (p, r)

/-- The optional first counter of a new HOTP credential (`7A 04` and four bytes), as eight bytes. -/
def counter (alg : Byte) : Bytes → Except SW (Bytes × Bytes)
  | [] => .ok ([0, 0, 0, 0, 0, 0, 0, 0], [])
  | t :: r => if t ≠ 0x7A then .ok ([0, 0, 0, 0, 0, 0, 0, 0], t :: r) else match r with
    | [] => .error 0x6700
    | l :: r =>
      if l ≠ 4 ∨ alg &&& 0xF0 ≠ 0x10 then .error 0x6A80
      else if r.length < 4 then .error 0x6700
      else .ok ([0, 0, 0, 0] ++ r.take 4, r.drop 4)

/-- HOTP or TOTP, with SHA-1, SHA-256 or SHA-512. -/
def Alg (a : Byte) : Prop := (a &&& 0xF0 = 0x10 ∨ a &&& 0xF0 = 0x20) ∧ (a &&& 0x0F = 1 ∨ a &&& 0x0F = 2 ∨ a &&& 0x0F = 3)

instance (a : Byte) : Decidable (Alg a) := inferInstanceAs (Decidable (_ ∧ _))

/-- A new credential: name; `73`, length, algorithm, number of digits (4 to 8) and a secret of 1 to 64 bytes; properties;
counter; nothing else. -/
def newCred (d : Bytes) : Except SW Rec :=
  match name 2 d with
  | .error e => .error e
  | .ok (n, t :: l :: a :: g :: s :: r) =>
    if t ≠ 0x73 ∨ l ≤ 2 ∨ 66 < l ∨ ¬ Alg a ∨ g < 4 ∨ 8 < g then .error 0x6A80
    else if (s :: r).length < l.toNat - 2 then .error 0x6700
    else match props ((s :: r).drop (l.toNat - 2)) with
      | .error e => .error e
      | .ok (p, r') => match counter a r' with
        | .error e => .error e
        | .ok (c, []) => .ok ⟨n, a, g, (s :: r).take (l.toNat - 2), p, c⟩
        | .ok (_, _ :: _) => .error 0x6700
  | .ok _ => .error 0x6700

/-- An old name and a new name. -/
def twoNames (d : Bytes) : Except SW (Bytes × Bytes) :=
  match name 3 d with
  | .error e => .error e
  | .ok (a, r) => match name 3 r with
    | .error e => .error e
    | .ok (b, _) => .ok (a, b)

/-! ### Answers. `m` is the store before the command, `m'` after it, `a` the answer. -/

/-- Refused with a status; nothing changes. -/
def No (sw : SW) (m : Store) (a : Reply) (m' : Store) : Prop := a = .sw sw ∧ m' = m

/-- PUT: the name must be free, and there must be space. -/
def Put (c : Verif.Apdu.Capdu) (m : Store) (a : Reply) (m' : Store) : Prop :=
  if c.p1 ≠ 0 ∨ c.p2 ≠ 0 then No 0x6A86 m a m'
  else match newCred c.data with
  | .error e => No e m a m'
  | .ok q => match m q.name with
    | some _ => No 0x6985 m a m'
    | none => (m.Full ∧ No 0x6A84 m a m') ∨ (¬ m.Full ∧ a = .sw 0x9000 ∧ m' = m.insert q)

/-- DELETE: the name must be in use. -/
def Delete (c : Verif.Apdu.Capdu) (m : Store) (a : Reply) (m' : Store) : Prop :=
  if c.p1 ≠ 0 ∨ c.p2 ≠ 0 then No 0x6A86 m a m'
  else match name 2 c.data with
  | .error e => No e m a m'
  | .ok (n, _) => match m n with
    | none => No 0x6984 m a m'
    | some _ => a = .sw 0x9000 ∧ m' = m.erase n

/-- RENAME: the new name must be free and the old one in use. -/
def Rename (c : Verif.Apdu.Capdu) (m : Store) (a : Reply) (m' : Store) : Prop :=
  if c.p1 ≠ 0 ∨ c.p2 ≠ 0 then No 0x6A86 m a m'
  else match twoNames c.data with
  | .error e => No e m a m'
  | .ok (old, new) => match m new, m old with
    | some _, _ => No 0x6985 m a m'
    | none, none => No 0x6984 m a m'
    | none, some _ => a = .sw 0x9000 ∧ m' = m.rekey old new

/-- SET DEFAULT: a touch slot (1 or 2), with or without a carriage return, for a credential that is not a TOTP one. -/
def SetDefault (c : Verif.Apdu.Capdu) (m : Store) (a : Reply) (m' : Store) : Prop :=
  m' = m ∧
  if (c.p1 ≠ 1 ∧ c.p1 ≠ 2) ∨ (c.p2 ≠ 0 ∧ c.p2 ≠ 1) then a = .sw 0x6A86
  else match name 2 c.data with
  | .error e => a = .sw e
  | .ok (n, _) => match m n with
    | none => a = .sw 0x6984
    | some q => a = if Totp q then .sw 0x6985 else .sw 0x9000

/-- CALCULATE: the name must be in use and a touch given if the credential wants one (not over NFC). A TOTP credential
answers a challenge; an increasing-only one none that is smaller than the last, and remembers it. An HOTP credential counts,
unless its counter is at the end. -/
def Calculate (x : Ext) (i : In) (m : Store) (a : Reply) (m' : Store) : Prop :=
  if i.c.p1 ≠ 0 ∨ (i.c.p2 ≠ 0 ∧ i.c.p2 ≠ 1) then No 0x6A86 m a m'
  else match name 3 i.c.data with
  | .error e => No e m a m'
  | .ok (n, r) => match m n with
    | none => No 0x6984 m a m'
    | some q =>
      if NeedsTouch q ∧ i.nfc = false ∧ i.touch = false then No 0x6982 m a m'
      else if Totp q then match challenge r with
        | .error e => No e m a m'
        | .ok c =>
          if IncOnly q then
            if c.length = 8 ∧ num q.chal ≤ num c then
              a = .resp (codeResp x (i.c.p2 == 1) q c) 0x9000 ∧ m' = m.insert { q with chal := c }
            else No 0x6982 m a m'
          else a = .resp (codeResp x (i.c.p2 == 1) q c) 0x9000 ∧ m' = m
      else if num q.chal + 1 = 256 ^ 8 then No 0x6985 m a m'
      else ∃ c : Bytes, c.length = 8 ∧ num c = num q.chal + 1 ∧
        a = .resp (codeResp x (i.c.p2 == 1) q c) 0x9000 ∧ m' = m.insert { q with chal := c }

/-- The commands of the table. -/
def Listed (ins : Byte) : Prop := ins = 0x01 ∨ ins = 0x02 ∨ ins = 0x05 ∨ ins = 0x55 ∨ ins = 0xA2

/-- The table. Before the access code is proved everything is refused. -/
def Answer (x : Ext) (unlocked : Bool) (i : In) (m : Store) (a : Reply) (m' : Store) : Prop :=
  if unlocked = false then No 0x6982 m a m'
  else if i.c.ins = 0x01 then Put i.c m a m'
  else if i.c.ins = 0x02 then Delete i.c m a m'
  else if i.c.ins = 0x05 then Rename i.c m a m'
  else if i.c.ins = 0x55 then SetDefault i.c m a m'
  else Calculate x i m a m'

/-- Through a history, every command of the table is answered as the table says, or power is lost and the store is as it
was. -/
def Obeyed (x : Ext) : St → List (Op × Env) → Prop
  | _, [] => True
  | s, (op, env) :: h =>
    (∀ i, op = .apdu i → Listed i.c.ins →
      ((step x s op env).2 = .cut ∧ store (step x s op env).1.flash = store s.flash) ∨
      ∃ a, (step x s op env).2 = .reply a ∧ Answer x s.ram.validated i (store s.flash) a (store (step x s op env).1.flash)) ∧
    Obeyed x (step x s op env).1 h

end Verif.Spec.OathTable
