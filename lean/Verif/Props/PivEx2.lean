import Verif.Props.PivEx
import Verif.Props.PivData
import Verif.Props.PivReset
/-
Concrete PIV histories for C32 to C34.
-/
namespace Verif.Piv.Ex
open Verif.Piv Verif.Spec.Piv Cmd

theorem noOk : noFault .ok := rfl

/-! ### C32 -/

def auth : List Op := [.boot rnd, challenge, response [2, 3, 4, 5, 6, 7, 8, 9]]
def piece (n : Nat) (b : Byte) : Bytes := List.replicate n b
def put1 : In := inp 0xDB 0x3F 0xFF (objHdr .cert9A ++ piece 3 1) 0x10
def put2 : In := inp 0xDB 0x3F 0xFF (piece 4 2) 0x10
def put3 : In := inp 0xDB 0x3F 0xFF (piece 2 3)
def getCert : In := inp 0xCB 0x3F 0xFF (objHdr .cert9A) 0 4
def more : In := inp 0xC0 0 0 [] 0 4

/-- Three chained commands store nine bytes ... -/
example : PutChain (objHdr .cert9A) [put1, put2, put3] [1, 1, 1, 2, 2, 2, 2, 3, 3] :=
  ⟨[1, 1, 1], [2, 2, 2, 2, 3, 3], rfl, by decide, ⟨rfl, rfl, rfl, rfl, rfl⟩,
   [2, 2, 2, 2], [3, 3], rfl, by decide, ⟨rfl, rfl, rfl, rfl, rfl⟩, ⟨rfl, rfl, rfl, rfl, rfl⟩⟩

/-- ... which can be read back four at a time. -/
example : outs fresh (good (auth ++ [.apdu put1, .apdu put2, .apdu put3, .apdu getCert, .apdu more, .apdu more])) =
    [.reply (.sw 0x9000), .reply (.resp [0x7C, 0x0A, 0x81, 8, 1, 2, 3, 4, 5, 6, 7, 8] 0x9000), .reply (.sw 0x9000),
     .reply (.sw 0x9000), .reply (.sw 0x9000), .reply (.sw 0x9000), .reply (.resp [1, 1, 1, 2] 0x6105),
     .reply (.resp [2, 2, 2, 3] 0x6101), .reply (.resp [3] 0x9000)] := by decide +kernel

/-- The hypotheses of the reading theorem hold there. -/
example : IsGet getCert .cert9A ∧ IsMore more ∧
    ([(more, Env.good), (more, Env.good)] ≠ [] → room getCert + (([(more, Env.good), (more, Env.good)].dropLast).map
      (fun e => room e.1)).sum < [1, 1, 1, 2, 2, 2, 2, 3, 3].length) :=
  ⟨⟨rfl, rfl, rfl, rfl, rfl⟩, ⟨rfl, rfl⟩, by decide⟩

/-- The printed information is refused without the PIN and given with it. -/
def getPrinted : Op := cmd 0xCB 0x3F 0xFF (objHdr .printed)
def putPrinted : Op := cmd 0xDB 0x3F 0xFF (objHdr .printed ++ [7])

example : outs fresh (good (auth ++ [putPrinted, getPrinted, verifyOk, getPrinted])) =
    [.reply (.sw 0x9000), .reply (.resp [0x7C, 0x0A, 0x81, 8, 1, 2, 3, 4, 5, 6, 7, 8] 0x9000), .reply (.sw 0x9000),
     .reply (.sw 0x9000), .reply (.sw 0x6982), .reply (.sw 0x9000), .reply (.resp [7] 0x9000)] := by decide +kernel

example : Fits fresh := fun _ _ h => by cases h

example : ∃ o b, (after x fresh (good (auth ++ [putPrinted, verifyOk]))).flash.objs o = some b ∧ [7] <:+: b ∧
    (Protected o → PinShown (logOf x fresh (good (auth ++ [putPrinted, verifyOk])))) := by
  rcases C32_protected xOk (f := fresh) (fun _ _ h => by cases h) (good (auth ++ [putPrinted, verifyOk]))
    (inp 0xCB 0x3F 0xFF (objHdr .printed)) (.inl rfl) Env.good [7] 0x9000 (by decide) (by decide +kernel) with h | h
  · exact absurd h.1 (by decide)
  · exact h

/-! ### C33 -/

def pukBad : Op := cmd 0x2C 0 0x80 (piece 8 0x39 ++ piece 8 0x31)
def pukOk (new : Bytes) : Op := cmd 0x2C 0 0x80 (factoryPuk ++ new)
def resetCmd : Op := cmd 0xFB 0 0 []

/-- RESET works exactly after PIN and PUK are blocked. -/
example : oks fresh [.boot rnd, resetCmd, verifyBad, verifyBad, verifyBad, verifyOk, resetCmd, pukBad, pukBad, pukBad,
    pukOk factoryPin, resetCmd, verifyOk] =
    [true, false, false, false, false, false, false, false, false, false, false, true, true] := by decide +kernel

/-- The right PUK unblocks the PIN and sets it. -/
example : oks fresh [.boot rnd, verifyBad, verifyBad, verifyBad, verifyOk, pukOk (piece 8 0x35), verifyOk,
    cmd 0x20 0 0x80 (piece 8 0x35)] = [true, false, false, false, false, true, false, true] := by decide +kernel

example : Blocked (after x fresh (good [.boot rnd, verifyBad, verifyBad, verifyBad])).flash.pin := by
  have h : (after x fresh (good [.boot rnd, verifyBad, verifyBad, verifyBad])).flash.pin =
    some ⟨factoryPin, some 0, some 3⟩ := by decide +kernel
  rw [h]
  intro q n e _ h
  cases e; cases h; rfl

/-- Without the hypothesis that the storage works, RESET succeeds although nothing is blocked: it takes tries that
cannot be read for none left. -/
theorem C33_storage_error :
    outs fresh [(.boot rnd, Env.good), (resetCmd, fun n => if n < 5 then .fail else .ok)] =
      [.reply (.sw 0x9000), .reply (.sw 0x9000)] ∧
    ¬ Blocked (after x fresh [(.boot rnd, Env.good)]).flash.pin := by
  refine ⟨by decide +kernel, fun h => ?_⟩
  have e : (after x fresh [(.boot rnd, Env.good)]).flash.pin = some ⟨factoryPin, some 3, some 3⟩ := by decide +kernel
  rw [e] at h
  exact absurd (h _ 3 rfl (by decide) rfl) (by decide)

/-! ### C34 -/

def metaCmd (p2 : Byte) : Op := cmd 0xF7 0 p2 []
def changePuk (new : Bytes) : Op := cmd 0x24 0 0x81 (factoryPuk ++ new)
def changePin (old new : Bytes) : Op := cmd 0x24 0 0x80 (old ++ new)

example : IsMeta (inp 0xF7 0 0x81 []) 0x81 := ⟨rfl, rfl, rfl, rfl, rfl⟩

/-- The flags before and after changing the PUK, and the PIN there and back. -/
example : outs fresh (good [.boot rnd, metaCmd 0x81, changePuk (piece 8 0x35), metaCmd 0x81,
      metaCmd 0x9B, changePin factoryPin (piece 8 0x35), metaCmd 0x80, changePin (piece 8 0x35) factoryPin, metaCmd 0x80]) =
    [.reply (.sw 0x9000), .reply (.resp [1, 1, 255, 5, 1, 1, 6, 2, 3, 3] 0x9000), .reply (.sw 0x9000),
     .reply (.resp [1, 1, 255, 5, 1, 0, 6, 2, 3, 3] 0x9000), .reply (.resp [1, 1, 3, 2, 2, 0, 1, 5, 1, 1] 0x9000),
     .reply (.sw 0x9000), .reply (.resp [1, 1, 255, 5, 1, 0, 6, 2, 3, 3] 0x9000), .reply (.sw 0x9000),
     .reply (.resp [1, 1, 255, 5, 1, 1, 6, 2, 3, 3] 0x9000)] := by decide +kernel

/-- **C34, refuted for RESET RETRY COUNTER.** The PIN was set to another value, and the metadata still call it the
default. -/
theorem C34_refuted :
    let h := good [.boot rnd, pukOk (piece 8 0x35)]
    secret (after x fresh h).flash.pin = some (piece 8 0x35) ∧
    MetaPin (step x (after x fresh h) (metaCmd 0x80) Env.good).2 1 ∧
    PinFlagStale (logOf x fresh h) :=
  ⟨by decide +kernel, ⟨3, 3, by decide +kernel⟩, .inl ⟨_, rfl, rfl, [], by decide +kernel⟩⟩

/-- The other way round: the PIN is the default, and the metadata deny it. -/
theorem C34_refuted' :
    let h := good [.boot rnd, changePin factoryPin (piece 8 0x35), pukOk factoryPin]
    secret (after x fresh h).flash.pin = some factoryPin ∧
    MetaPin (step x (after x fresh h) (metaCmd 0x80) Env.good).2 0 :=
  ⟨by decide +kernel, ⟨3, 3, by decide +kernel⟩⟩

/-- A history to which the theorem about the PIN applies. -/
example : ¬ PinFlagStale (logOf x fresh (good [.boot rnd, changePin factoryPin (piece 8 0x35)])) := by
  rintro (⟨i, e, h, _⟩ | ⟨h, _⟩)
  · cases e; exact absurd h (by decide)
  · rcases h with ⟨i, e, _⟩ | ⟨h, _⟩
    · cases e
    · exact h

end Verif.Piv.Ex
