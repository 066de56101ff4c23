import Verif.Spec.Ctap
/-
Credential management: what the answers to the commands for metadata, deletion and new user data have to be.
-/
namespace Verif.Spec.Manage
open Verif.Ctap

/-- What the commands depend on: the PIN tries until power is cycled, the token (after its timer) and the stored
credentials, in their places. -/
structure Facts where
  left : Byte
  tok : Tok
  recs : List Dc

/-- The number of credentials. -/
def live (l : List Dc) : Nat := l.countP (!·.deleted)

/-- A store with these credentials: no update of it is pending, and the number that is kept is right. -/
def Storing (f : Flash) (l : List Dc) : Prop :=
  ∃ a, f.dc = some ⟨l, some a⟩ ∧ a.add = false ∧ a.del = false ∧ a.numbers.toNat = live l

/-- The device is in this state when the command comes. -/
structure Sees (s : St) (i : In) (d : Facts) : Prop where
  left : s.ram.consec = d.left
  tok : s.ram.tok.observe i.tick = d.tok
  store : Storing s.flash d.recs
  metas : s.flash.dm.isSome = true

/-- The token allows the command: it is in use, has the permission for credential management, and has authenticated the
subcommand with its parameters. A token for one relying party is good for its credentials, and not for those of the
others. -/
structure Permitted (x : Ext) (d : Facts) (q : CmReq) : Prop where
  inUse : d.tok.inUse = true
  mac : Authenticates x d.tok.token (q.sub :: q.params) q.pinAuth q.proto
  perm : d.tok.perms &&& 0x04 ≠ 0
  scope : ∀ h, d.tok.rp = some h → q.sub ≠ 1 ∧ h = Cid.rp q.cid

/-- This is the credential with this id. -/
def is (cid : Bytes) (c : Dc) : Bool := !c.deleted && c.cid == cid

/-- Something is done to the credential with this id, and to nothing else. -/
def change (cid : Bytes) (g : Dc → Dc) : List Dc → List Dc
  | [] => []
  | c :: l => if is cid c then g c :: l else c :: change cid g l

open Classical in
/-- The status with which the request is refused, if it is. -/
noncomputable def refusal (x : Ext) (d : Facts) (q : CmReq) : Option Byte :=
  if 299 < q.params.length then some 0x03
  else if d.left = 0 then some 0x34
  else if ¬ Permitted x d q then some 0x33
  else if q.sub = 1 then none
  else match d.recs.find? (is q.cid) with
    | none => some 0x2E
    -- new data must be for the same user
    | some c => if q.sub = 7 ∧ c.user.id ≠ q.user.id then some 0x02 else none

/-- The answer. -/
def answer (d : Facts) (q : CmReq) : Resp :=
  if q.sub = 1 then .credsMeta (live d.recs) (64 - (live d.recs : Int)) else .empty

/-- The credentials afterwards. -/
def after (d : Facts) (q : CmReq) : List Dc :=
  if q.sub = 6 then change q.cid (fun c => { c with deleted := true }) d.recs
  else if q.sub = 7 then change q.cid (fun c => { c with user := q.user }) d.recs
  else d.recs

end Verif.Spec.Manage
