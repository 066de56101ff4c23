import Verif.Model.Piv
/-
What the PIV properties talk about. Logs are newest first; an entry holds the state before an operation, the
operation and what was observed.
-/
namespace Verif.Spec.Piv
open Verif.Piv

abbrev Entry := St × Op × Out

/-- The command was answered 9000. -/
def Ok (o : Out) : Prop := ∃ d, o = .reply (.resp d 0x9000)

/-- A successful SELECT of the applet. -/
def Selected (op : Op) (o : Out) : Prop := ∃ i, op = .apdu i ∧ i.c.ins = 0xA4 ∧ Ok o

/-- A successful RESET. -/
def ResetDone (op : Op) (o : Out) : Prop := ∃ i, op = .apdu i ∧ i.c.ins = 0xFB ∧ Ok o

/-- The session ends: power is lost or switched on, another applet is selected, the applet is selected anew, or it
is reset. -/
def SessionEnds (op : Op) (o : Out) : Prop :=
  o = .cut ∨ (∃ rnd, op = .boot rnd) ∨ op = .deselect ∨ (∃ rnd, op = .factory rnd) ∨ Selected op o ∨ ResetDone op o

/-- Variables are lost or the applet is selected anew: what ends a pending authentication. -/
def Restart (op : Op) (o : Out) : Prop := o = .cut ∨ (∃ rnd, op = .boot rnd) ∨ Selected op o

/-- GENERAL AUTHENTICATE was answered with the template 7C 0A `tag` 08 `v`. -/
def Gave (tag : Byte) (v : Bytes) (op : Op) (o : Out) : Prop :=
  ∃ i, op = .apdu i ∧ i.c.ins = 0x87 ∧ o = .reply (.resp ([0x7C, 0x0A, tag, 0x08] ++ v) 0x9000)

/-- The value that authenticates the host: after a challenge (tag 81), its encryption under the management key of
that time; after a witness (tag 80), its decryption. Only the last of them counts, and none after a restart. -/
def Expected (x : Ext) : List Entry → Bool → Bytes → Prop
  | [], _, _ => False
  | (s, op, o) :: old, m, d =>
    (∃ v k, Gave 0x81 v op o ∧ m = false ∧ s.flash.mgmt = some k ∧ x.cr.tdes k.key v = some d) ∨
    (∃ v k, Gave 0x80 v op o ∧ m = true ∧ s.flash.mgmt = some k ∧ x.cr.tdes k.key d = some v) ∨
    (Expected x old m d ∧ ¬ Restart op o ∧ (∀ v, ¬ Gave 0x81 v op o) ∧ ∀ v, ¬ Gave 0x80 v op o)

/-- The command data contain the 8-byte value `v` under `tag`, with any encoding of the length. -/
def Carries (data : Bytes) (tag : Byte) (v : Bytes) : Prop :=
  v.length = 8 ∧
  ∃ pre len post, data = pre ++ [tag] ++ len ++ v ++ post ∧ (len = [8] ∨ len = [0x81, 8] ∨ len = [0x82, 0, 8])

/-- The host answered the last challenge, or returned the last witness, with the management key. -/
def Authenticates (x : Ext) (old : List Entry) (op : Op) (o : Out) : Prop :=
  ∃ i, op = .apdu i ∧ i.c.ins = 0x87 ∧ i.c.p2 = 0x9B ∧ Ok o ∧
    ∃ v, (Expected x old false v ∧ Carries i.c.data 0x82 v) ∨ (Expected x old true v ∧ Carries i.c.data 0x80 v)

/-- The host has authenticated with the management key in this session, and has not asked for a new challenge or
witness since. -/
def AdminAuth (x : Ext) : List Entry → Prop
  | [] => False
  | (_, op, o) :: old =>
    Authenticates x old op o ∨
    (AdminAuth x old ∧ ¬ SessionEnds op o ∧ (∀ v, ¬ Gave 0x81 v op o) ∧ ∀ v, ¬ Gave 0x80 v op o)

/-- The management commands: PUT DATA, GENERATE, SET MANAGEMENT KEY, IMPORT, ALGORITHM EXTENSION. -/
def adminIns : List Byte := [0xDB, 0x47, 0xFF, 0xFE, 0xEE]

/-- Refused with an error status and no data: class not supported, security status not satisfied, or (SET MANAGEMENT
KEY only) malformed; `none` means that the device is off. -/
def Refused (ins : Byte) (o : Out) : Prop :=
  o = .none ∨ o = .reply (.resp [] 0x6E00) ∨ o = .reply (.resp [] 0x6982) ∨
  (ins = 0xFF ∧ ∃ sw ∈ [0x6A86, 0x6700, 0x6A80], o = .reply (.resp [] sw))

/-- Objects, keys, management key and algorithm configuration are the same. -/
def Unmanaged (f f' : Flash) : Prop := f'.objs = f.objs ∧ f'.keys = f.keys ∧ f'.mgmt = f.mgmt ∧ f'.alg = f.alg

/-- The first 8 bytes of the data are the stored PIN (or PUK), which is not blocked. -/
def Shows (p : Pin.Flash) (data : Bytes) : Prop :=
  ∃ q n, p = some q ∧ q.ctr = some n ∧ n ≠ 0 ∧ 8 ≤ data.length ∧ data.take 8 = q.data.take 64

/-- VERIFY with the PIN, or CHANGE REFERENCE DATA with the old PIN. -/
def PresentsPin (f : Flash) (op : Op) : Prop :=
  ∃ i, op = .apdu i ∧ (i.c.ins = 0x20 ∨ i.c.ins = 0x24) ∧ i.c.p1 = 0 ∧ i.c.p2 = 0x80 ∧ Shows f.pin i.c.data

/-- The status word of a wrong or blocked PIN. -/
def PinWrong (o : Out) : Prop := ∃ d sw, o = .reply (.resp d sw) ∧ (0x63C0 ≤ sw ∧ sw ≤ 0x63C0 + 255 ∨ sw = 0x6983)

/-- A VERIFY that failed, a logout, or a change of the PIN. -/
def PinRevoked (op : Op) (o : Out) : Prop :=
  ∃ i, op = .apdu i ∧
    ((i.c.ins = 0x20 ∧ PinWrong o) ∨ (i.c.ins = 0x20 ∧ i.c.p1 = 0xFF ∧ Ok o) ∨
     (i.c.ins = 0x24 ∧ i.c.p2 = 0x80 ∧ (PinWrong o ∨ Ok o)) ∨ (i.c.ins = 0x2C ∧ Ok o))

/-- A private key was used. -/
def KeyUsed (op : Op) (o : Out) : Prop := ∃ i, op = .apdu i ∧ i.c.ins = 0x87 ∧ i.c.p2 ≠ 0x9B ∧ Ok o

/-- The PIN was presented in this session and not revoked since. -/
def PinShown : List Entry → Prop
  | [] => False
  | (s, op, o) :: old =>
    (PresentsPin s.flash op ∨ PinShown old) ∧ ¬ SessionEnds op o ∧ ¬ PinRevoked op o

/-- The PIN was presented in this session, not revoked since, and no private key was used since. -/
def PinFresh : List Entry → Prop
  | [] => False
  | (s, op, o) :: old =>
    (PresentsPin s.flash op ∨ PinFresh old) ∧ ¬ SessionEnds op o ∧ ¬ PinRevoked op o ∧ ¬ KeyUsed op o

/-- The user was present at time `t` during a command for a key with a touch policy, since power was switched on. -/
def TouchedAt (t : Nat) : List Entry → Prop
  | [] => False
  | (s, op, o) :: old =>
    (∃ i k m, op = .apdu i ∧ i.c.ins = 0x87 ∧ refOf i.c.p2 = some k ∧ metaOf k s.flash = some m ∧
      (m.touch = 2 ∨ m.touch = 3) ∧ i.nfc = false ∧ i.present = true ∧ i.tick' = t) ∨
    (TouchedAt t old ∧ o ≠ .cut ∧ ∀ rnd, op ≠ .boot rnd)

/-- The touch policy of the key is satisfied (touch 2: for this command; 3: now or less than 15 s ago). Over NFC
holding the key to the reader is the touch. -/
def TouchOk (log : List Entry) (i : In) (m : KeyFile.Meta) : Prop :=
  i.nfc = true ∨
  ((m.touch = 2 → i.present = true) ∧
   (m.touch = 3 → i.present = true ∨ ∃ t, TouchedAt t log ∧ t < i.tick ∧ i.tick < t + 15000))

/-- The PIN policy of the key is satisfied (1 never, 3 always, otherwise once). -/
def PinOk (log : List Entry) (m : KeyFile.Meta) : Prop :=
  (m.pin ≠ 1 → PinShown log) ∧ (m.pin = 3 → PinFresh log)

/-- The capacity of an object (SP 800-73-4 Part 1 Table 7). -/
def cap : Obj → Nat
  | .chuid => 2916
  | .ccc => 287
  | .printed => 245
  | .fingers => 512
  | .face => 512
  | _ => 3000

/-- The tag of an object below 5FC1. -/
def tagOf : Obj → Byte
  | .cert9A => 0x05
  | .cert9C => 0x0A
  | .cert9D => 0x0B
  | .cert9E => 0x01
  | .cert82 => 0x0D
  | .cert83 => 0x0E
  | .chuid => 0x02
  | .ccc => 0x07
  | .printed => 0x09
  | .fingers => 0x03
  | .face => 0x08

/-- Reading these objects needs the PIN. -/
def Protected : Obj → Prop
  | .printed | .fingers | .face => True
  | _ => False

instance : DecidablePred Protected := fun o => by cases o <;> unfold Protected <;> infer_instance

/-- No object is larger than its capacity. -/
def Fits (f : Flash) : Prop := ∀ o d, f.objs o = some d → d.length ≤ cap o

/-- No tries are left. (Also holds if the file does not exist or the PIN was never set.) -/
def Blocked (p : Pin.Flash) : Prop := ∀ q n, p = some q → q.data ≠ [] → q.ctr = some n → n = 0

/-- The stored PIN or PUK. -/
def secret (p : Pin.Flash) : Option Bytes := p.map (·.data)

/-- A successful RESET RETRY COUNTER, after which neither the PIN was changed with CHANGE REFERENCE DATA nor the applet
was reset. -/
def PinFlagStale : List Entry → Prop
  | [] => False
  | (_, op, o) :: old =>
    (∃ i, op = .apdu i ∧ i.c.ins = 0x2C ∧ Ok o) ∨
    (PinFlagStale old ∧ ¬ (∃ i, op = .apdu i ∧ i.c.ins = 0x24 ∧ i.c.p2 = 0x80 ∧ Ok o) ∧ ¬ ResetDone op o ∧
      ∀ rnd, op = .factory rnd → o = .none)

/-- GET METADATA for a reference. -/
def IsMeta (i : In) (p2 : Byte) : Prop := i.c.cla = 0 ∧ i.c.ins = 0xF7 ∧ i.c.p1 = 0 ∧ i.c.p2 = p2 ∧ i.c.data = []

/-- The answer for the PIN (80) or the PUK (81): no algorithm, the flag `v`, and the limit and the rest of the
attempts. -/
def MetaPin (o : Out) (v : Byte) : Prop := ∃ d n, o = .reply (.resp [1, 1, 0xFF, 5, 1, v, 6, 2, d, n] 0x9000)

/-- The answer for the management key (9B): 3DES, the policies, and the flag `v`. -/
def MetaMgmt (o : Out) (v : Byte) : Prop := o = .reply (.resp [1, 1, 3, 2, 2, 0, 1, 5, 1, v] 0x9000)

/-- The factory values: "123456" and "12345678" (padded with FF to eight bytes), and 01 to 08 three times. -/
def factoryPin : Bytes := [0x31, 0x32, 0x33, 0x34, 0x35, 0x36, 0xFF, 0xFF]
def factoryPuk : Bytes := [0x31, 0x32, 0x33, 0x34, 0x35, 0x36, 0x37, 0x38]
def factoryMgmt : Bytes := [1, 2, 3, 4, 5, 6, 7, 8, 1, 2, 3, 4, 5, 6, 7, 8, 1, 2, 3, 4, 5, 6, 7, 8]

/-- PUT DATA with these data; all but the last command of a chain have bit 5 of the class set. -/
def IsPut (i : In) (last : Bool) (d : Bytes) : Prop :=
  i.c.cla = (if last then 0 else 0x10) ∧ i.c.ins = 0xDB ∧ i.c.p1 = 0x3F ∧ i.c.p2 = 0xFF ∧ i.c.data = d

/-- The commands transport `b` in one or more pieces, none of them empty but perhaps the first; the first is preceded
by `hdr`. -/
def PutChain (hdr : Bytes) : List In → Bytes → Prop
  | [], _ => False
  | [i], b => IsPut i true (hdr ++ b)
  | i :: j :: rest, b => ∃ d b', b = d ++ b' ∧ b' ≠ [] ∧ IsPut i false (hdr ++ d) ∧ PutChain [] (j :: rest) b'

/-- What precedes an object in PUT DATA, and what GET DATA asks with. -/
def objHdr (o : Obj) : Bytes := [0x5C, 3, 0x5F, 0xC1, tagOf o]

/-- GET DATA for an object. -/
def IsGet (i : In) (o : Obj) : Prop :=
  i.c.cla = 0 ∧ i.c.ins = 0xCB ∧ i.c.p1 = 0x3F ∧ i.c.p2 = 0xFF ∧ i.c.data = objHdr o

/-- GET RESPONSE. -/
def IsMore (i : In) : Prop := i.c.cla = 0 ∧ i.c.ins = 0xC0

/-- All data the host has received. -/
def received : List Entry → Bytes
  | [] => []
  | (_, _, .reply (.resp d _)) :: old => received old ++ d
  | _ :: old => received old

/-- The last status word. -/
def lastSw : List Entry → Option Nat
  | (_, _, .reply (.resp _ sw)) :: _ => some sw
  | _ => none

/-- How much the host allows to be sent at once; a response holds 1340 bytes at most. -/
def room (i : In) : Nat := min i.c.le 1340

/-- Flash after a factory reset; `rnd` are the random numbers that went into the card identifiers. The algorithm
configuration survives a reset. -/
def factory (rnd : Nat → Byte) (alg : Option Alg) : Flash where
  objs := fun
    | .ccc => some (cccTpl rnd)
    | .chuid => some (chuidTpl rnd)
    | _ => some []
  keys := fun s => some ⟨KeyFile.zeroMat, some ⟨.none, 0,
    match s with
    | .k9A | .k9C | .k9E => 1
    | _ => 4,
    match s with
    | .k9E => 1
    | _ => 2, 1⟩⟩
  mgmt := some ⟨[1, 2, 3, 4, 5, 6, 7, 8, 1, 2, 3, 4, 5, 6, 7, 8, 1, 2, 3, 4, 5, 6, 7, 8], some ⟨.tdea, 1, 2, 1, 1⟩, some 1⟩
  pin := some ⟨[0x31, 0x32, 0x33, 0x34, 0x35, 0x36, 0xFF, 0xFF], some 3, some 3⟩
  pinDflt := some 1
  puk := some ⟨[0x31, 0x32, 0x33, 0x34, 0x35, 0x36, 0x37, 0x38], some 3, some 3⟩
  pukDflt := some 1
  alg := some (alg.getD ⟨1, 0xE0, 0x05, 0x16, 0xE1, 0x53, 0x54⟩)

/-- The command that asks for a challenge. -/
def IsChallenge (i : In) : Prop :=
  i.c.cla = 0 ∧ i.c.ins = 0x87 ∧ i.c.p1 = 3 ∧ i.c.p2 = 0x9B ∧ i.c.data = [0x7C, 2, 0x81, 0]

/-- The command that answers it with `v`. -/
def IsResponse (i : In) (v : Bytes) : Prop :=
  i.c.cla = 0 ∧ i.c.ins = 0x87 ∧ i.c.p1 = 3 ∧ i.c.p2 = 0x9B ∧ i.c.data = [0x7C, 10, 0x82, 8] ++ v

end Verif.Spec.Piv
