import Verif.Model.Pgp
/-
What the OpenPGP properties talk about. Logs are newest first; an entry holds the state before an operation, the
operation and what was observed.
-/
namespace Verif.Spec.Pgp
open Verif.Pgp

abbrev Entry := St × Op × Out

/-- The command was answered 9000. -/
def Ok (o : Out) : Prop := ∃ d, o = .reply (.resp d 0x9000)

/-- A command with this instruction. -/
def IsIns (op : Op) (ins : Byte) : Prop := ∃ i, op = .apdu i ∧ i.c.ins = ins

/-- The session ends: power is lost or switched on, another applet is selected, the device is reset, or the applet is
activated. -/
def SessionEnds (op : Op) (o : Out) : Prop :=
  o = .cut ∨ op = .boot ∨ op = .deselect ∨ op = .factory ∨ (IsIns op 0x44 ∧ Ok o)

/-- The stored PIN has tries left and is equal to the candidate. (The length of the candidate is taken modulo 256.) -/
def Shows (p : Pin.Flash) (cand : Bytes) : Prop :=
  ∃ q n, p = some q ∧ q.ctr = some n ∧ n ≠ 0 ∧ cand.take (cand.length % 256) = q.data.take 64

/-- A successful VERIFY of PW1 under reference `p2` with the right PIN. -/
def VerifiesPw1 (p2 : Byte) (f : Flash) (op : Op) (o : Out) : Prop :=
  ∃ i, op = .apdu i ∧ i.c.ins = 0x20 ∧ i.c.p1 = 0 ∧ i.c.p2 = p2 ∧ i.c.data ≠ [] ∧ Shows f.pw1 i.c.data ∧ Ok o

/-- The applet gave an answer that is not about the class, the parameters, the state of the card or an internal
error. -/
def Answered (o : Out) : Prop :=
  ∃ d sw, o = .reply (.resp d sw) ∧ sw ∉ [0x6E00, 0x6A86, 0x6285, 0x6900]

/-- COMPUTE DIGITAL SIGNATURE. -/
def IsSign (i : In) : Prop := i.c.ins = 0x2A ∧ i.c.p1 = 0x9E ∧ i.c.p2 = 0x9A
instance (i : In) : Decidable (IsSign i) := by unfold IsSign; infer_instance
/-- DECIPHER. -/
def IsDecipher (i : In) : Prop := i.c.ins = 0x2A ∧ i.c.p1 = 0x80 ∧ i.c.p2 = 0x86
instance (i : In) : Decidable (IsDecipher i) := by unfold IsDecipher; infer_instance
/-- INTERNAL AUTHENTICATE. -/
def IsAuth (i : In) : Prop := i.c.ins = 0x88
instance (i : In) : Decidable (IsAuth i) := by unfold IsAuth; infer_instance

/-- A result left the card: success, or data with an error status. -/
def Given (o : Out) : Prop := ∃ d sw, o = .reply (.resp d sw) ∧ (sw = 0x9000 ∨ d ≠ [])

/-- PW1 has to be verified for every signature. -/
def OneShot (f : Flash) : Prop := ∃ d, f.data = some d ∧ d.pwStatus = some 0

/-- A VERIFY for the reference, or a CHANGE REFERENCE DATA for PW1, was answered. -/
def Rechecked (p2 : Byte) (op : Op) (o : Out) : Prop :=
  ∃ i, op = .apdu i ∧ (i.c.ins = 0x20 ∧ i.c.p2 = p2 ∨ i.c.ins = 0x24 ∧ i.c.p2 = 0x81) ∧ Answered o

/-- PW1 was verified under 81 in this session; since then neither checked again for 81, nor changed, nor - if it has to
be verified for every signature - used for one. -/
def May81 : List Entry → Prop
  | [] => False
  | (s, op, o) :: old =>
    VerifiesPw1 0x81 s.flash op o ∨
    (May81 old ∧ ¬ SessionEnds op o ∧ ¬ Rechecked 0x81 op o ∧
      ¬ (∃ i, op = .apdu i ∧ IsSign i ∧ Given o ∧ OneShot s.flash))

/-- PW1 was verified under 82 in this session, and since then neither checked again for 82 nor changed. -/
def May82 : List Entry → Prop
  | [] => False
  | (s, op, o) :: old =>
    VerifiesPw1 0x82 s.flash op o ∨ (May82 old ∧ ¬ SessionEnds op o ∧ ¬ Rechecked 0x82 op o)

/-- The stored PIN of `p`, as far as CHANGE REFERENCE DATA and RESET RETRY COUNTER compare it: the data start with it. -/
def StartsWith (p : Pin.Flash) (data : Bytes) : Prop :=
  ∃ q n, p = some q ∧ q.ctr = some n ∧ n ≠ 0 ∧ q.data.take 64 <+: data

/-- VERIFY with PW3, or CHANGE REFERENCE DATA with the old PW3. -/
def PresentsPw3 (f : Flash) (op : Op) : Prop :=
  ∃ i, op = .apdu i ∧ i.c.p1 = 0 ∧ i.c.p2 = 0x83 ∧
    (i.c.ins = 0x20 ∧ i.c.data ≠ [] ∧ Shows f.pw3 i.c.data ∨ i.c.ins = 0x24 ∧ StartsWith f.pw3 i.c.data)

/-- A logout, a wrong PW3 (6700, 6982, 6983 of VERIFY), or a change of PW3 that succeeded or was refused for the old
PW3. -/
def Pw3Revoked (op : Op) (o : Out) : Prop :=
  ∃ i, op = .apdu i ∧ i.c.p2 = 0x83 ∧
    ((i.c.ins = 0x20 ∧ i.c.p1 = 0xFF ∧ Ok o) ∨
     (i.c.ins = 0x20 ∧ ∃ sw ∈ [0x6700, 0x6982, 0x6983], o = .reply (.resp [] sw)) ∨
     (i.c.ins = 0x24 ∧ (Ok o ∨ ∃ sw ∈ [0x6982, 0x6983], o = .reply (.resp [] sw))))

/-- PW3 was presented in this session and not revoked since. -/
def Pw3Shown : List Entry → Prop
  | [] => False
  | (s, op, o) :: old => (PresentsPw3 s.flash op ∨ Pw3Shown old) ∧ ¬ SessionEnds op o ∧ ¬ Pw3Revoked op o

/-- Refused without data: class, security status, card terminated, or an internal error; or the device is off or loses
power. -/
def Refused (o : Out) : Prop :=
  o = .none ∨ o = .cut ∨ ∃ sw ∈ [0x6E00, 0x6982, 0x6285, 0x6900], o = .reply (.resp [] sw)

/-- The metadata of a key. -/
def metaOf (f : Flash) (k : K) : Option KeyFile.Meta := (f.keys k).bind (·.info)

/-- The touch policy of a key. -/
def touchOf (f : Flash) (k : K) : Option Byte := (metaOf f k).map (·.touch)

/-- Permanent user interaction flag. -/
def permanent : Byte := 4

/-- The applet is terminated. -/
def Terminated (f : Flash) : Prop := ∃ d, f.data = some d ∧ d.term = some 1
/-- The applet is active. -/
def Active (f : Flash) : Prop := ∃ d, f.data = some d ∧ d.term = some 0

/-- The applet may be installed anew by this operation: ACTIVATE of an applet that is not active, a reset of the device,
or the first start. -/
def Reinstalls (f : Flash) (op : Op) : Prop :=
  (IsIns op 0x44 ∧ ¬ Active f) ∨ op = .factory ∨ (op = .boot ∧ f.data = none)

/-- Without storage errors while the device starts. -/
def BootsOk (op : Op) (env : Env) : Prop := op = .boot → env.all cutsOnly

/-- The key with this policy may be used now: over NFC; or the user is present; or was present less than the cache time
ago. -/
def TouchedAt (t : Nat) : List Entry → Prop
  | [] => False
  | (_, op, o) :: old =>
    (∃ i, op = .apdu i ∧ (IsSign i ∨ IsDecipher i ∨ IsAuth i) ∧ i.nfc = false ∧ i.present = true ∧ i.tick' = t) ∨
    (TouchedAt t old ∧ o ≠ .cut ∧ op ≠ .boot)

/-- The key an operation uses. -/
def usedKey (i : In) : K := if i.c.ins = 0x88 then .aut else if i.c.p1 = 0x9E then .sig else .dec

/-- What is signed: the data of the command, filled up with zeros in front for the short Weierstrass curves. -/
def toBeSigned (x : Ext) (t : KeyFile.KTy) (d : Bytes) : Bytes :=
  if t.isWei then List.replicate (x.cr.priv t - d.length) 0 ++ d else d

/-- The number the counter holds. -/
def ctrVal : Byte × Byte × Byte → Nat
  | (a, b, c) => a.toNat * 65536 + b.toNat * 256 + c.toNat

/-- The signature counter. -/
def counter (f : Flash) : Option Nat := (f.data.bind (·.ctr)).map ctrVal

/-- The data of an import command name the signature key: tag 4D, a length, B6. -/
def NamesSig (d : Bytes) : Prop :=
  ∃ l rest, d = [0x4D] ++ l ++ [0xB6] ++ rest ∧
    ((∃ n, l = [n] ∧ n < 0x80) ∨ (∃ n, l = [0x81, n]) ∨ ∃ m n, l = [0x82, m, n])

/-- A new signature key: GENERATE ASYMMETRIC KEY PAIR or import for B6. -/
def NewSigKey (op : Op) : Prop :=
  ∃ i, op = .apdu i ∧
    (i.c.ins = 0x47 ∧ i.c.p1 = 0x80 ∧ i.c.data.head? = some 0xB6 ∨ i.c.ins = 0xDB ∧ NamesSig i.c.data)

/-- How one operation may change the signature counter. -/
def Counted (f : Flash) (op : Op) (o : Out) (m n : Nat) : Prop :=
  ((∃ i, op = .apdu i ∧ IsSign i) ∧ Ok o ∧ n = (m + 1) % 2 ^ 24) ∨
  (NewSigKey op ∧ Ok o ∧ n = 0) ∨
  (Reinstalls f op ∧ (n = 0 ∨ ¬ Ok o ∧ n = m)) ∨
  (¬ ((∃ i, op = .apdu i ∧ IsSign i) ∧ Ok o) ∧ ¬ (NewSigKey op ∧ Ok o) ∧ ¬ Reinstalls f op ∧ n = m)

/-- What the counter is after a history when it was `n0` before: one more (modulo 2^24) for every signature answered with
9000, zero for every new signature key and every new installation. -/
def Counts (n0 : Nat) : List Entry → Nat → Prop
  | [], n => n = n0
  | (s, op, o) :: old, n => ∃ m, Counts n0 old m ∧ Counted s.flash op o m n

/-- No tries are left. (Also holds if the PIN is empty or does not exist.) -/
def Blocked (p : Pin.Flash) : Prop := ∀ q n, p = some q → q.data ≠ [] → q.ctr = some n → n = 0

/-- A key after installation: RSA-2048, not present. -/
def factoryKey (usage : Byte) : PKey :=
  ⟨KeyFile.zeroMat, some ⟨.rsa2048, 0, usage, 0, 0⟩, some (List.replicate 20 0), some (List.replicate 4 0)⟩

/-- Flash after an installation: no keys (sign, decipher, authenticate), no certificates, PW1 "123456", PW3 "12345678", no
resetting code, counter zero, every signature needs PW1, no touch needed. -/
def factory : Flash where
  data := some ⟨[], some [], some [], some [], some [0x39], some 0, some (List.replicate 20 0),
    some (List.replicate 20 0), some (List.replicate 20 0), some 0, some (0, 0, 0), some 0⟩
  keys := fun k => some (factoryKey (if k = .dec then 2 else 1))
  certs := fun _ => some []
  pw1 := some ⟨[0x31, 0x32, 0x33, 0x34, 0x35, 0x36], some 3, some 3⟩
  pw3 := some ⟨[0x31, 0x32, 0x33, 0x34, 0x35, 0x36, 0x37, 0x38], some 3, some 3⟩
  rc := some ⟨[], some 3, some 3⟩

/-! ### Changing the PINs -/

/-- The PIN that is stored. -/
def secretOf (p : Pin.Flash) : Option Bytes := p.map (·.data)

/-- Those who may change PW1: CHANGE REFERENCE DATA by who knows PW1, RESET RETRY COUNTER by who knows the resetting code
(if there is one) or has shown PW3, and a new installation. -/
def MayChangePw1 (log : List Entry) (f : Flash) (op : Op) : Prop :=
  (∃ i, op = .apdu i ∧ i.c.ins = 0x24 ∧ i.c.p2 = 0x81 ∧ StartsWith f.pw1 i.c.data) ∨
  (∃ i, op = .apdu i ∧ i.c.ins = 0x2C ∧ i.c.p1 = 0 ∧ StartsWith f.rc i.c.data ∧ secretOf f.rc ≠ some []) ∨
  (∃ i, op = .apdu i ∧ i.c.ins = 0x2C ∧ i.c.p1 = 2 ∧ Pw3Shown log) ∨
  Reinstalls f op

/-- Those who may change PW3: CHANGE REFERENCE DATA by who knows PW3, and a new installation. -/
def MayChangePw3 (f : Flash) (op : Op) : Prop :=
  (∃ i, op = .apdu i ∧ i.c.ins = 0x24 ∧ i.c.p2 = 0x83 ∧ StartsWith f.pw3 i.c.data) ∨ Reinstalls f op

/-- Those who may change the resetting code: PUT DATA 00D3 by who has shown PW3, and a new installation. -/
def MayChangeRc (log : List Entry) (f : Flash) (op : Op) : Prop :=
  (∃ i, op = .apdu i ∧ i.c.ins = 0xDA ∧ i.c.p1 = 0 ∧ i.c.p2 = 0xD3 ∧ Pw3Shown log) ∨ Reinstalls f op

/-- No storage errors while the device starts, and none while CHANGE REFERENCE DATA or RESET RETRY COUNTER runs. Power may
be cut anywhere. -/
def ReadsPins (op : Op) (env : Env) : Prop := op = .boot ∨ IsIns op 0x24 ∨ IsIns op 0x2C → env.all cutsOnly

/-- A card on which nothing is installed. -/
def blank : Flash := ⟨none, fun _ => none, fun _ => none, none, none, none⟩

end Verif.Spec.Pgp
