import Verif.Model.Oath
/-
Vocabulary for the OATH properties: the wire format of the requests, and the credential store as a
map from names to credentials.
-/
namespace Verif.Spec.Oath
open Verif.Oath

/-! ### Credentials -/

/-- HOTP credential (type in the high half of the algorithm byte). -/
def Hotp (r : Rec) : Prop := r.alg &&& 0xF0 = 0x10
/-- TOTP credential. -/
def Totp (r : Rec) : Prop := r.alg &&& 0xF0 = 0x20
/-- Increasing-only property. -/
def IncOnly (r : Rec) : Prop := r.prop &&& 0x01 ≠ 0
/-- Touch required. -/
def NeedsTouch (r : Rec) : Prop := r.prop &&& 0x02 ≠ 0

instance (r : Rec) : Decidable (Hotp r) := inferInstanceAs (Decidable (_ = _))
instance (r : Rec) : Decidable (Totp r) := inferInstanceAs (Decidable (_ = _))
instance (r : Rec) : Decidable (IncOnly r) := inferInstanceAs (Decidable (_ ≠ _))
instance (r : Rec) : Decidable (NeedsTouch r) := inferInstanceAs (Decidable (_ ≠ _))

/-- Big-endian number of a byte string. -/
def num : Bytes → Nat
  | [] => 0
  | b :: r => b.toNat * 256 ^ r.length + num r

/-- Four bytes, big-endian. -/
def be4 (n : Nat) : Bytes :=
  [UInt8.ofNat (n / 2 ^ 24), UInt8.ofNat (n / 2 ^ 16), UInt8.ofNat (n / 2 ^ 8), UInt8.ofNat n]

/-- Dynamic truncation (RFC 4226, 5.3): the four bytes at the offset given by the low half of the last
byte, without the top bit. -/
def dynTrunc (dig : Bytes) : Nat :=
  num ((dig.drop ((dig.getLast?.getD 0).toNat % 16)).take 4) % 2 ^ 31

/-- HMAC of a moving factor under the secret of a credential. -/
def mac (x : Ext) (r : Rec) (c : Bytes) : Bytes := x.hmac (r.alg &&& 0x0F) r.secret c

/-- The response of CALCULATE for a credential and a moving factor: truncated or full. -/
def codeResp (x : Ext) (trunc : Bool) (r : Rec) (c : Bytes) : Bytes :=
  if trunc then [0x76, 5, r.digits] ++ be4 (dynTrunc (mac x r c))
  else [0x75, UInt8.ofNat (1 + (mac x r c).length), r.digits] ++ mac x r c

/-- Assumption on the external HMAC functions: 20 to 64 bytes of output. -/
def GoodHmac (x : Ext) : Prop := ∀ a k m, 20 ≤ (x.hmac a k m).length ∧ (x.hmac a k m).length ≤ 64

/-- The last `d` decimal digits of `n` in ASCII. -/
def ascii (d n : Nat) : Bytes := (List.range d).map fun i => UInt8.ofNat (0x30 + n / 10 ^ (d - 1 - i) % 10)

/-! ### Requests -/

/-- A name on the wire. -/
def ValidName (n : Bytes) : Prop := 1 ≤ n.length ∧ n.length ≤ 64

/-- TLV `71 len name`. -/
def nameTlv (n : Bytes) : Bytes := [0x71, UInt8.ofNat n.length] ++ n

/-- TLV `74 len challenge`. -/
def chalTlv (c : Bytes) : Bytes := [0x74, UInt8.ofNat c.length] ++ c

/-- The data starts with a valid name (DELETE, SET DEFAULT, CALCULATE). -/
def NameReq (d n : Bytes) : Prop := ValidName n ∧ ∃ rest, d = nameTlv n ++ rest

/-- RENAME: old name, new name. -/
def RenameReq (d old new : Bytes) : Prop :=
  ValidName old ∧ ValidName new ∧ ∃ rest, d = nameTlv old ++ (nameTlv new ++ rest)

/-- CALCULATE of a TOTP credential: name, challenge of 1 to 8 bytes. -/
def CalcReq (d n c : Bytes) : Prop :=
  ValidName n ∧ 1 ≤ c.length ∧ c.length ≤ 8 ∧ ∃ rest, d = nameTlv n ++ (chalTlv c ++ rest)

/-- PUT: name, key (algorithm, digits, secret), optional property, optional HOTP counter. -/
structure PutReq (d : Bytes) (r : Rec) (p c : Bytes) : Prop where
  name : ValidName r.name
  secret : 1 ≤ r.secret.length ∧ r.secret.length ≤ 64
  type : Hotp r ∨ Totp r
  alg : r.alg &&& 0x0F = 1 ∨ r.alg &&& 0x0F = 2 ∨ r.alg &&& 0x0F = 3
  digits : 4 ≤ r.digits ∧ r.digits ≤ 8
  prop : (p = [] ∧ r.prop = 0) ∨ (p = [0x78, r.prop] ∧ r.prop ≤ 3)
  counter : (c = [] ∧ r.chal = [0, 0, 0, 0, 0, 0, 0, 0]) ∨
    (Hotp r ∧ ∃ k : Bytes, k.length = 4 ∧ c = [0x7A, 4] ++ k ∧ r.chal = [0, 0, 0, 0] ++ k)
  wire : d = nameTlv r.name ++ ([0x73, UInt8.ofNat (2 + r.secret.length), r.alg, r.digits] ++
    (r.secret ++ (p ++ c)))

/-- VALIDATE: response, host challenge. -/
def ValidateReq (d resp chal : Bytes) : Prop :=
  resp.length = 20 ∧ 1 ≤ chal.length ∧ chal.length ≤ 255 ∧ d = [0x75, 20] ++ (resp ++ chalTlv chal)

/-! ### The store -/

/-- The credential store as a map. -/
abbrev Store := Bytes → Option Rec

/-- The credential stored under a name. -/
def store (f : Flash) : Store := fun n =>
  if n = [] then none else f.oath.bind fun o => o.recs.find? fun r => decide (r.name = n)

/-- Insert. -/
def Store.insert (m : Store) (r : Rec) : Store := fun n => if n = r.name then some r else m n
/-- Erase. -/
def Store.erase (m : Store) (k : Bytes) : Store := fun n => if n = k then none else m n
/-- Re-key. -/
def Store.rekey (m : Store) (old new : Bytes) : Store := fun n =>
  if n = new then (m old).map fun r => { r with name := new } else if n = old then none else m n

/-- No credential. -/
def Store.empty : Store := fun _ => none

/-- 100 different names are stored. -/
def Store.Full (m : Store) : Prop :=
  ∃ l : List Bytes, l.Nodup ∧ l.length = 100 ∧ ∀ n ∈ l, m n ≠ none

/-- What a stored credential looks like. -/
structure WfRec (r : Rec) : Prop where
  name : r.name.length ≤ 64
  secret : 1 ≤ r.secret.length ∧ r.secret.length ≤ 64
  type : Hotp r ∨ Totp r
  digits : 4 ≤ r.digits ∧ r.digits ≤ 8
  chal : r.chal.length = 8

/-- The slot file of a healthy device: at most 100 slots, each used slot well formed, and no two used
slots (name not empty) with the same name. -/
def Valid (f : Flash) : Prop := ∀ o, f.oath = some o →
  o.recs.length ≤ 100 ∧ (∀ r ∈ o.recs, WfRec r) ∧
  ∀ (j k : Nat) (r s : Rec), o.recs[j]? = some r → o.recs[k]? = some s → r.name ≠ [] → r.name = s.name → j = k

/-- How the calculation of codes may change a credential: not at all; the counter of an HOTP
credential goes up by one; the last challenge of an increasing-only TOTP credential goes up. -/
def Advance (q q' : Rec) : Prop :=
  q' = q ∨ ∃ c : Bytes, q' = { q with chal := c } ∧ c.length = 8 ∧
    ((Hotp q ∧ num c = num q.chal + 1) ∨ (Totp q ∧ IncOnly q ∧ num q.chal ≤ num c))

/-- The same names, with credentials advanced. -/
def Store.Advanced (m m' : Store) : Prop :=
  ∀ n, (m n = none ∧ m' n = none) ∨ ∃ q q', m n = some q ∧ m' n = some q' ∧ Advance q q'

/-- The effect of an operation on the map, given what was observed. `failing`: file-system calls may
return errors. -/
def StoreStep (failing : Prop) (m : Store) (op : Op) (out : Out) (m' : Store) : Prop :=
  match op with
  | .apdu i =>
    if i.c.ins = 0x01 then
      (out = .reply (.sw SW.ok) ∧ ∃ r p c, PutReq i.c.data r p c ∧ m r.name = none ∧ m' = m.insert r) ∨
      (out ≠ .reply (.sw SW.ok) ∧ m' = m)
    else if i.c.ins = 0x02 then
      (out = .reply (.sw SW.ok) ∧ ∃ n, NameReq i.c.data n ∧ m n ≠ none ∧ m' = m.erase n) ∨
      (out ≠ .reply (.sw SW.ok) ∧ m' = m)
    else if i.c.ins = 0x05 then
      (out = .reply (.sw SW.ok) ∧ ∃ a b, RenameReq i.c.data a b ∧ m a ≠ none ∧ m b = none ∧
        m' = m.rekey a b) ∨
      (out ≠ .reply (.sw SW.ok) ∧ m' = m)
    else if i.c.ins = 0xA2 ∨ i.c.ins = 0xA4 ∨ i.c.ins = 0xA5 then m.Advanced m'
    else m' = m
  | .touch _ => m.Advanced m'
  | .install reset _ => m' = m ∨ (m' = Store.empty ∧ (reset = true ∨ failing))
  | _ => m' = m

/-- The refinement over a whole history. -/
def StoreRun (failing : Prop) : Store → List Op → List Out → Store → Prop
  | m, [], [], m' => m' = m
  | m, op :: ops, o :: os, m' => ∃ m1, StoreStep failing m op o m1 ∧ StoreRun failing m1 ops os m'
  | _, _, _, _ => False

/-- An access code is set and has not been proved in this session. -/
def Locked (s : St) : Prop :=
  s.ram.validated = false ∧ ∃ o k, s.flash.oath = some o ∧ o.key = some k ∧ k ≠ []

/-- VALIDATE with the right answer to the current challenge. -/
def Unlocks (x : Ext) (s : St) (op : Op) : Prop :=
  ∃ i o k c, op = .apdu i ∧ i.c.ins = 0xA3 ∧ s.flash.oath = some o ∧ o.key = some k ∧ k ≠ [] ∧
    ValidateReq i.c.data (x.hmac 1 k s.ram.authChal) c

/-- Operation `op` in state `s` was answered with a code of the HOTP credential named `n`: CALCULATE of
that name with status 9000, or a touch that typed something from a slot set to that credential. -/
def GivesCode (s : St) (op : Op) (out : Out) (n : Bytes) : Prop :=
  (∃ i d, op = .apdu i ∧ i.c.ins = 0xA2 ∧ NameReq i.c.data n ∧ out = .reply (.resp d SW.ok)) ∨
  (∃ (long : Bool) (j : Nat) (m : Bytes) (e : Byte) (o : OathFile) (q : Rec) (b : Bytes),
    op = .touch long ∧ (if long then s.ram.slot1 else s.ram.slot0) = .oath (j * recSize) m e ∧
    s.flash.oath = some o ∧ o.recs[j]? = some q ∧ q.name = n ∧ out = .typed (some b))

/-- The observation is the code of credential `q` for moving factor `c`. -/
def Shows (x : Ext) (q : Rec) (c : Bytes) (out : Out) : Prop :=
  (∃ t, out = .reply (.resp (codeResp x t q c) SW.ok)) ∨
  (∃ e, (e = [] ∨ e = [0x0D]) ∧
    out = .typed (some (ascii q.digits.toNat (dynTrunc (mac x q c)) ++ e)))

/-- Bytes the host collects with LIST and SEND REMAINING: it sends LIST with expected length `le 0`,
and as long as the answer is 61xx SEND REMAINING with `le 1`, `le 2`, ... `none` if it is refused. -/
def collect (x : Ext) (le : Nat → Nat) : Nat → St → Byte → Option Bytes
  | 0, _, _ => none
  | k + 1, s, ins =>
    match step x s (.apdu { c := ⟨0, ins, 0, 0, [], le 0⟩, nfc := false, touch := false, rnd := [] })
        (fun _ => .ok) with
    | (s', .reply (.resp d sw)) =>
      if sw = SW.ok then some d
      else if sw = SW.more then (collect x (fun n => le (n + 1)) k s' 0xA5).map (d ++ ·)
      else none
    | _ => none

/-- LIST entry: `72 len alg name`. -/
def listing (r : Rec) : Bytes := [0x72, UInt8.ofNat (r.name.length + 1), r.alg] ++ r.name

/-- CALCULATE ALL entry: the name, then HOTP, touch required, or a code. -/
def allResp (x : Ext) (trunc : Bool) (c : Bytes) (r : Rec) : Bytes :=
  nameTlv r.name ++
    (if Hotp r then [0x77, 1, r.digits] else if NeedsTouch r then [0x7C, 1, r.digits]
     else codeResp x trunc r c)

/-- A touch slot is set to type codes of the record at byte offset `off` of the slot file. -/
def SlotUses (s : Slot) (off : Nat) : Prop := ∃ n e, s = .oath off n e

/-- Decimal value of ASCII digits. -/
def decimal (b : Bytes) : Nat := b.foldl (fun a d => 10 * a + (d.toNat - 0x30)) 0

/-- Two touch slots that differ at most in the static password. -/
def SamePublic : Slot → Slot → Prop
  | .static _ e, .static _ e' => e = e'
  | a, b => a = b

/-- Operations that do not remove the credential named `n`: everything except its DELETE and RENAME
and a factory reset. -/
def Keeps (n : Bytes) : Op → Prop
  | .apdu i => (i.c.ins = 0x02 → ¬ NameReq i.c.data n) ∧ (i.c.ins = 0x05 → ∀ b, ¬ RenameReq i.c.data n b)
  | .install reset _ => reset = false
  | _ => True

/-- The same credential, possibly further on. -/
def Later (q q' : Rec) : Prop :=
  q' = { q with chal := q'.chal } ∧ num q.chal ≤ num q'.chal

end Verif.Spec.Oath
