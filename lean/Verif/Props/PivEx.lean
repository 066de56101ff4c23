import Verif.Props.PivPin
/-
Concrete PIV histories: cases that meet the hypotheses of the theorems, and counterexamples.
-/
namespace Verif.Piv.Ex
open Verif.Piv Verif.Spec.Piv Cmd

/-- A toy cipher that depends on the key. -/
def tdes (k c : Bytes) : Option Bytes := some (c.map (· + k.headD 0))

def cr : KeyFile.Crypto where
  priv := fun _ => 32
  pub := fun _ => 64
  sig := fun _ => 64
  imp := fun _ => ⟨fun _ => true, fun _ => true, List.reverse, fun _ => true⟩
  pubOf := fun _ _ => List.replicate 64 7
  swap := List.reverse
  sign := fun _ _ d => some d
  rsaPrivate := fun _ d => some d
  ansi := fun _ d => d
  ecdh := fun _ _ d => some d
  tdes := tdes

def x : Ext := ⟨2, cr⟩
def rnd : Nat → Byte := fun n => UInt8.ofNat (n + 1)

/-- A command without anything special about its environment. -/
def inp (ins p1 p2 : Byte) (data : Bytes) (cla : Byte := 0) (le : Nat := 256) : In :=
  ⟨⟨cla, ins, p1, p2, data, le⟩, [], [], List.replicate 8 0, rnd, fun _ => none, false, false, 0, 0, []⟩

def cmd (ins p1 p2 : Byte) (data : Bytes) (cla : Byte := 0) (le : Nat := 256) : Op := .apdu (inp ins p1 p2 data cla le)

def fresh : Flash := ⟨fun _ => none, fun _ => none, none, none, none, none, none, none⟩

/-- What the host sees of a history, oldest first. -/
def outs (f : Flash) (h : List (Op × Env)) : List Out := ((run x ⟨f, none⟩ [] h).2.map (·.2.2)).reverse

def good : List Op → List (Op × Env) := List.map (·, Env.good)

def challenge : Op := cmd 0x87 3 0x9B [0x7C, 2, 0x81, 0]
def response (v : Bytes) : Op := cmd 0x87 3 0x9B ([0x7C, 0x0A, 0x82, 8] ++ v)
def put : Op := cmd 0xDB 0x3F 0xFF [0x5C, 3, 0x5F, 0xC1, 0x05, 0xAA]

example : outs fresh (good [.boot rnd, challenge, response [2, 3, 4, 5, 6, 7, 8, 9], put]) =
    [.reply (.sw 0x9000), .reply (.resp [0x7C, 0x0A, 0x81, 8, 1, 2, 3, 4, 5, 6, 7, 8] 0x9000), .reply (.sw 0x9000),
     .reply (.sw 0x9000)] := by decide +kernel

/-! ### C30 -/

theorem xOk : x.Ok := ⟨by decide, by decide⟩
theorem cutOk : cutsOnly .ok := by intro h; cases h
theorem tdesTotal : ∀ k c, (x.cr.tdes k c).isSome := fun _ _ => rfl

theorem good_all {A : Fault → Prop} (hA : A .ok) {l : List Op} : ∀ e ∈ good l, e.2.all A := by
  intro e he
  simp only [good, List.mem_map] at he
  obtain ⟨_, _, rfl⟩ := he
  exact fun _ => hA

/-- Freshly booted, the host has no rights ... -/
theorem noAuth : ¬ AdminAuth x (logOf x fresh (good [.boot rnd])) := by
  rintro (⟨_, e, _⟩ | ⟨h, _⟩)
  · cases e
  · exact h

example : (step x (after x fresh (good [.boot rnd])) (.apdu (inp 0xDB 0x3F 0xFF [])) Env.good).1.flash =
      (after x fresh (good [.boot rnd])).flash ∧
    Refused 0xDB (step x (after x fresh (good [.boot rnd])) (.apdu (inp 0xDB 0x3F 0xFF [])) Env.good).2 :=
  C30_admin_needs_key xOk tdesTotal fresh _ (good_all cutOk) noAuth (inp 0xDB 0x3F 0xFF []) (by decide) Env.good
    (fun _ => cutOk)

/-- ... and after answering the challenge it has. -/
example : AdminAuth x (logOf x fresh (good [.boot rnd, challenge, response [2, 3, 4, 5, 6, 7, 8, 9]])) := by
  have h := inv30_run xOk tdesTotal fresh (good [.boot rnd, challenge, response [2, 3, 4, 5, 6, 7, 8, 9]])
    (good_all cutOk)
  have e : ((after x fresh (good [.boot rnd, challenge, response [2, 3, 4, 5, 6, 7, 8, 9]])).ram.map (·.admin))
      = some true := by decide +kernel
  obtain ⟨r, hr, ha⟩ := Option.map_eq_some_iff.mp e
  exact (h r hr).1 ha

/-- A wrong answer gives nothing, and neither does the right one the second time. -/
example : outs fresh (good [.boot rnd, challenge, response [2, 3, 4, 5, 6, 7, 8, 8], response [2, 3, 4, 5, 6, 7, 8, 9], put]) =
    [.reply (.sw 0x9000), .reply (.resp [0x7C, 0x0A, 0x81, 8, 1, 2, 3, 4, 5, 6, 7, 8] 0x9000), .reply (.sw 0x6982),
     .reply (.sw 0x6982), .reply (.sw 0x6982)] := by decide +kernel

/-- The second file access fails. -/
def failAt (n : Nat) : Env := fun k => if k = n then .fail else .ok

/-- **C30, refuted for storage errors.** If reading the management key fails while a challenge is prepared, the
host is told so (6900), but an answer of eight zero bytes is then accepted, although no challenge was ever
successfully given: the object is written. -/
theorem C30_storage_error :
    let h := [(.boot rnd, Env.good), (challenge, failAt 1), (response (List.replicate 8 0), Env.good), (put, Env.good)]
    outs fresh h = [.reply (.sw 0x9000), .reply (.resp [0x7C, 0x0A, 0x81, 8, 1, 2, 3, 4, 5, 6, 7, 8] 0x6900),
      .reply (.sw 0x9000), .reply (.sw 0x9000)] ∧
    (after x fresh h).flash.objs .cert9A = some [0xAA] := by decide +kernel

example : IsChallenge (inp 0x87 3 0x9B [0x7C, 2, 0x81, 0]) ∧
    x.cr.tdes defaultMgmt (rnd8 (inp 0x87 3 0x9B [])) = some [2, 3, 4, 5, 6, 7, 8, 9] ∧
    IsResponse (inp 0x87 3 0x9B [0x7C, 10, 0x82, 8, 2, 3, 4, 5, 6, 7, 8, 9]) [2, 3, 4, 5, 6, 7, 8, 9] :=
  ⟨⟨rfl, rfl, rfl, rfl, rfl⟩, by decide, ⟨rfl, rfl, rfl, rfl, rfl⟩⟩

/-! ### C31 -/

/-- A device with a P-256 key in slot 9A with these PIN and touch policies. -/
def withKey (pin touch : Byte) : Flash :=
  (factory rnd none).setKey .k9A (some ⟨KeyFile.zeroMat, some ⟨.secp256r1, 1, 1, pin, touch⟩⟩)

def verifyOk : Op := cmd 0x20 0 0x80 [0x31, 0x32, 0x33, 0x34, 0x35, 0x36, 0xFF, 0xFF]
def verifyBad : Op := cmd 0x20 0 0x80 [0x31, 0x32, 0x33, 0x34, 0x35, 0x37, 0xFF, 0xFF]
def signData : Bytes := [0x7C, 36, 0x82, 0, 0x81, 32] ++ List.replicate 32 5
def sign : Op := cmd 0x87 0x11 0x9A signData
/-- Signing with the user present at the given time. -/
def signAt (present : Bool) (t : Nat) : Op :=
  .apdu { inp 0x87 0x11 0x9A signData with present := present, tick := t, tick' := t }

/-- Which commands of a history were answered 9000. -/
def oks (f : Flash) (h : List Op) : List Bool := (outs f (good h)).map fun
  | .reply (.resp _ sw) => sw == 0x9000
  | _ => false

/-- PIN once, always and never. -/
example : oks (withKey 2 1) [.boot rnd, sign, verifyOk, sign, sign, verifyBad, sign] =
    [true, false, true, true, true, false, false] := by decide +kernel
example : oks (withKey 3 1) [.boot rnd, sign, verifyOk, sign, sign, verifyOk, sign] =
    [true, false, true, true, false, true, true] := by decide +kernel
example : oks (withKey 1 1) [.boot rnd, sign] = [true, true] := by decide +kernel

/-- Touch always and cached. -/
example : oks (withKey 1 2) [.boot rnd, sign, signAt true 100, signAt false 200] = [true, false, true, false] := by
  decide +kernel
example : oks (withKey 1 3) [.boot rnd, sign, signAt true 100, signAt false 200, signAt false 15099, signAt false 15100] =
    [true, false, true, true, true, false] := by decide +kernel

/-- The theorem applies to the third command of the second history. -/
example : ∃ k m, refOf 0x9A = some k ∧ metaOf k (after x (withKey 3 1) (good [.boot rnd, verifyOk])).flash = some m ∧
    PinOk (logOf x (withKey 3 1) (good [.boot rnd, verifyOk])) m ∧
    TouchOk (logOf x (withKey 3 1) (good [.boot rnd, verifyOk])) (inp 0x87 0x11 0x9A signData) m := by
  refine C31_policies_obeyed xOk (withKey 3 1) (good [.boot rnd, verifyOk]) (inp 0x87 0x11 0x9A signData) rfl (by decide)
    (by decide) Env.good ?_
  have h : (match (step x (after x (withKey 3 1) (good [.boot rnd, verifyOk])) (.apdu (inp 0x87 0x11 0x9A signData)) Env.good).2 with
    | .reply (.resp _ sw) => sw == 0x9000
    | _ => false) = true := by decide +kernel
  split at h
  · next d sw e => rw [e]; exact ⟨d, by rw [beq_iff_eq.mp h]⟩
  · cases h

end Verif.Piv.Ex
