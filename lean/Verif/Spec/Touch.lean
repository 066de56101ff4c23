import Verif.Spec.Oath
/-
Touch slots: what a touch of the device types. A small machine with the two slots.
-/
namespace Verif.Spec.Touch
open Verif.Oath Verif.Spec.Oath

/-- What a touch does: nothing, type a password, or type the next code of the credential at a place of the OATH store
(its name when the slot was set is what the host is shown); with a carriage return if `enter` is not 0. -/
inductive Action where
  | nothing
  | password (pw : Bytes) (enter : Byte)
  | code (place : Nat) (name : Bytes) (enter : Byte)

/-- The slots for short and long touches. -/
structure Slots where
  short : Action
  long : Action

def Slots.off : Slots := ⟨.nothing, .nothing⟩

/-- The slots that are saved (if there are any), and those in use since power-up. -/
structure Mach where
  saved : Option Slots
  live : Slots

/-- The data of a configuration command: `00`; or `02`, length, a password of at most 32 bytes, `enter`. -/
def wanted : Bytes → Except SW Action
  | [] => .error 0x6700
  | t :: r =>
    if t = 0 then (if r = [] then .ok .nothing else .error 0x6700)
    else if t = 2 then match r with
      | [] => .error 0x6700
      | l :: r => if l.toNat ≤ 32 ∧ r.length = l.toNat + 1 then .ok (.password (r.take l.toNat) (r.getLastD 0)) else .error 0x6700
    else .error 0x6A80

/-- Slot 1 is the one for short touches. -/
def Slots.put (p : Byte) (a : Action) (l : Slots) : Slots :=
  if p = 1 then ⟨a, l.long⟩ else ⟨l.short, a⟩

/-- The action types codes of the credential at place `j`. -/
def Action.of (j : Nat) : Action → Bool
  | .code k _ _ => k == j
  | _ => false

/-- When a credential is deleted one slot that types its codes is switched off: the first, if both do (C21). -/
def Slots.drop (j : Nat) (l : Slots) : Option Slots :=
  if l.short.of j then some ⟨.nothing, l.long⟩ else if l.long.of j then some ⟨l.short, .nothing⟩ else none

/-- The request names the stored credential `q` at place `j`. -/
def Means (s : St) (d : Bytes) (j : Nat) (q : Rec) : Prop :=
  ∃ o, s.flash.oath = some o ∧ NameReq d q.name ∧ o.recs[j]? = some q ∧ ∀ p ∈ o.recs.take j, p.name ≠ q.name

/-- The operations that change slots, and how: configuration, DELETE and SET DEFAULT. -/
def Changes (s : St) (l : Slots) : Op → Slots → Prop
  | .passWrite c, l' => (c.p1 = 1 ∨ c.p1 = 2) ∧ ∃ a, wanted c.data = .ok a ∧ l' = l.put c.p1 a
  | .apdu i, l' => s.ram.validated = true ∧
      ((i.c.ins = 0x02 ∧ i.c.p1 = 0 ∧ i.c.p2 = 0 ∧ ∃ j q, Means s i.c.data j q ∧ l.drop j = some l') ∨
       (i.c.ins = 0x55 ∧ (i.c.p1 = 1 ∨ i.c.p1 = 2) ∧ (i.c.p2 = 0 ∨ i.c.p2 = 1) ∧
         ∃ j q, Means s i.c.data j q ∧ ¬ Totp q ∧ l' = l.put i.c.p1 (.code j q.name i.c.p2)))
  | _, _ => False

/-- The end of what is typed. -/
def cr (enter : Byte) : Bytes := if enter = 0 then [] else [0x0D]

/-- What is typed; `none`: the touch fails. -/
inductive Types (x : Ext) (s : St) : Action → Option Bytes → Prop
  | nothing : Types x s .nothing (some [])
  | password (pw : Bytes) (e : Byte) : Types x s (.password pw e) (some (pw ++ cr e))
  | code (j : Nat) (n : Bytes) (e : Byte) (q : Rec) (c : Bytes) (hq : s.flash.oath.bind (·.recs[j]?) = some q)
      (hn : q.name ≠ []) (hh : Hotp q) (hl : c.length = q.chal.length) (hc : num c = num q.chal + 1) :
      Types x s (.code j n e) (some (ascii q.digits.toNat (dynTrunc (mac x q c)) ++ cr e))
  | dead (j : Nat) (n : Bytes) (e : Byte)
      (h : ∀ q, s.flash.oath.bind (·.recs[j]?) = some q → q.name = [] ∨ ¬ Hotp q ∨ num q.chal + 1 = 256 ^ q.chal.length) :
      Types x s (.code j n e) none

/-- What the host is shown of a slot: no password. -/
def Action.shown : Action → Bytes
  | .nothing => [0]
  | .password _ e => [2, e]
  | .code _ n e => [1, UInt8.ofNat n.length] ++ n ++ [e]

/-- The slots after an operation that was finished, and what was seen of it. -/
def Next (x : Ext) (s : St) (m : Mach) (op : Op) (o : Out) (m' : Mach) : Prop :=
  match op with
  | .boot => m' = ⟨m.saved, .off⟩
  | .passInstall reset => o = .reply (.sw 0x9000) ∧
      m' = ⟨some (if reset then .off else m.saved.getD .off), if reset then .off else m.saved.getD .off⟩
  | .touch long => m' = m ∧ ∃ b, o = .typed b ∧ Types x s (if long then m.live.long else m.live.short) b
  | .passRead => m' = m ∧ o = .reply (.resp (m.live.short.shown ++ m.live.long.shown) 0x9000)
  | .passWrite c =>
    if c.p1 = 1 ∨ c.p1 = 2 then match wanted c.data with
      | .ok a => o = .reply (.sw 0x9000) ∧ m' = ⟨some (m.live.put c.p1 a), m.live.put c.p1 a⟩
      | .error e => o = .reply (.sw e) ∧ m' = m
    else o = .reply (.sw 0x6A86) ∧ m' = m
  | _ => (∃ l, Changes s m.live op l ∧ m' = ⟨some l, l⟩) ∨ ((∀ l, ¬ Changes s m.live op l) ∧ m' = m)

/-- The slots after a loss of power during an operation: what was saved before, or what the operation saves. -/
def Lost (s : St) (m : Mach) (op : Op) (m' : Mach) : Prop :=
  m'.live = .off ∧ (m'.saved = m.saved ∨ (∃ l, Changes s m.live op l ∧ m'.saved = some l))

/-- The device follows the machine through a history. -/
def Obeys (x : Ext) : St → Mach → List (Op × Env) → Prop
  | _, _, [] => True
  | s, m, (op, env) :: h =>
    ∃ m', (((step x s op env).2 ≠ .cut ∧ Next x s m op (step x s op env).2 m') ∨ ((step x s op env).2 = .cut ∧ Lost s m op m')) ∧
      Obeys x (step x s op env).1 m' h

end Verif.Spec.Touch
