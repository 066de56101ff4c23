import Verif.Spec.Ctap
/-
Large blobs: a small machine that says what every request is answered with.
-/
namespace Verif.Spec.Blobs
open Verif.Ctap

/-- An upload: so many bytes of the `n` that were announced have come; or it has ended, after `k` bytes. -/
inductive Upload where
  | going (b : Bytes) (n : Nat)
  | over (k : Nat)

/-- The stored array and the upload. -/
structure Mach where
  array : Bytes
  up : Upload

/-- Where the next fragment belongs. -/
def Upload.pos : Upload → Nat
  | .going b _ => b.length
  | .over k => k

/-- Power was lost: no upload is there. -/
def Mach.lost (m : Mach) : Mach := { m with up := .going [] 0 }

/-- What a token has to authenticate: 32 bytes 0xFF, the command, the offset in four bytes, the hash of the fragment. -/
def message (x : Ext) (q : LbReq) : Bytes :=
  List.replicate 32 0xFF ++ [0x0C, 0x00] ++
    [UInt8.ofNat q.offset, UInt8.ofNat (q.offset / 256), UInt8.ofNat (q.offset / 256 / 256), UInt8.ofNat (q.offset / 256 / 256 / 256)] ++ x.sha q.set

/-- The token in use has authenticated the fragment and may write large blobs. -/
structure Vouched (x : Ext) (tok : Tok) (q : LbReq) : Prop where
  inUse : tok.inUse = true
  mac : ∃ a p, q.pinAuth = some a ∧ q.proto = some p ∧ Authenticates x tok.token (message x q) a p
  perm : tok.perms &&& 0x10 ≠ 0

open Classical in
/-- The status with which the authentication of a fragment is refused: only if a PIN is set. -/
noncomputable def barrier (x : Ext) (s : St) (i : In) (q : LbReq) : Option Byte :=
  if rdCert (·.pin) s.flash = some [] then none
  else if q.pinAuth = none then some 0x36
  else if q.proto = none then some 0x14
  else if s.ram.consec = 0 then some 0x34
  else if Vouched x (s.ram.tok.observe i.tick) q then none
  else some 0x33

/-- A fragment. One at offset 0 begins a new upload, whatever becomes of it; others have to follow. The last one makes
the upload the stored array, if its last 16 bytes are the hash of the others. -/
def Mach.write (x : Ext) (m : Mach) (barrier : Option Byte) (q : LbReq) : Mach × Out :=
  let u := if q.offset = 0 then .going [] q.length else m.up
  if q.offset ≠ u.pos then (⟨m.array, u⟩, .err 0x04)
  else match barrier, u with
    | some c, _ => (⟨m.array, u⟩, .err c)
    | none, .over _ => (⟨m.array, u⟩, .err 0x02)
    | none, .going b n =>
      if n < (b ++ q.set).length then (⟨m.array, u⟩, .err 0x02)
      else if (b ++ q.set).length < n then (⟨m.array, .going (b ++ q.set) n⟩, .resp .empty)
      else if (b ++ q.set).drop (n - 16) = (x.sha ((b ++ q.set).take (n - 16))).take 16 then (⟨b ++ q.set, .over n⟩, .resp .empty)
      else (⟨m.array, .over n⟩, .err 0x3D)

/-- Reading `n` bytes: as many as there are, from an offset in the array. -/
def Mach.read (m : Mach) (off n : Nat) : Out :=
  if m.array.length < off then .err 0x02 else .resp (.config ((m.array.drop off).take n))

/-- What the machine says about an operation, and its state after the answer. -/
noncomputable def Mach.next (x : Ext) (s : St) (m : Mach) : Op → Mach × Option Out
  | .powerOn _ => (m.lost, none)
  | .cbor i (.lb (.ok q)) => match q.get with
    | some n => (m, some (m.read q.offset n))
    | none => ((m.write x (barrier x s i q) q).1, some (m.write x (barrier x s i q) q).2)
  | _ => (m, none)

/-- The requests that the parser lets through: offsets of 16 bits, and arrays of at least 17 bytes. -/
def Sane : Op → Prop
  | .cbor _ (.lb (.ok q)) => q.offset < 65536 ∧ (q.get = none → q.offset = 0 → 17 ≤ q.length)
  | _ => True

/-- The device follows the machine through a history: every answer is the one that the machine gives, unless power is lost. -/
def Obeys (x : Ext) : St → Mach → List (Op × Env) → Prop
  | _, _, [] => True
  | s, m, (op, env) :: l =>
    ((step x s op env).2 = .cut ∧ Obeys x (step x s op env).1 m.lost l) ∨
    ((∀ o, (m.next x s op).2 = some o → (step x s op env).2 = o) ∧ Obeys x (step x s op env).1 (m.next x s op).1 l)

end Verif.Spec.Blobs
