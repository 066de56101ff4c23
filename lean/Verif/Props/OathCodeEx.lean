import Verif.Props.OathCode
import Verif.Props.CardEx
/-
C99: concrete cases that meet the hypotheses of the theorems, and the case in which an answer recorded in
one session opens the next.
-/
namespace Verif.Oath.ExCode
open Verif.Spec.Oath Verif.Spec.OathCode

/-- An HMAC that depends on the key and the message. -/
def hx : Ext := ⟨fun _ k m => (k.take 4 ++ m ++ List.replicate 20 4).take 20⟩
theorem hx_good : GoodHmac hx := by intro a k m; simp [hx]; omega

def key : Bytes := [9, 1, 2, 3, 4, 5, 6, 7, 8, 9, 10, 11, 12, 13, 14, 15]
/-- SET CODE with the proof for challenge `7 7`. -/
def setData (proof : Bytes) : Bytes := [0x73, 17, 1] ++ (key ++ (chalTlv [7, 7] ++ ([0x75, 20] ++ proof)))
def setCmd : In := exCmd 3 0 0 (setData (hx.hmac 1 key [7, 7]))
def selCmd : In := exCmd 0xA4 4 0 []
/-- VALIDATE with challenge `1 1` of the host. -/
def valCmd (resp : Bytes) : In := exCmd 0xA3 0 0 ([0x75, 20] ++ (resp ++ chalTlv [1, 1]))
/-- The challenge shown by `selCmd`. -/
def chal : Bytes := [1, 2, 3, 4, 5, 6, 7, 8]
/-- The code is set and the applet selected. -/
def start : List (Op × Env) := [(.apdu setCmd, allOk), (.apdu selCmd, allOk)]

example : CodeReq setCmd.c.data key [7, 7] (hx.hmac 1 key [7, 7]) ∧ IsSet setCmd ∧ (sess exS).isOpen = true ∧
    exS.flash.oath ≠ none :=
  ⟨⟨by decide, by decide, by decide, 1, rfl⟩, rfl, rfl, by decide⟩

example : ClearReq (exCmd 3 0 0 []).c.data ∧ ClearReq (exCmd 3 0 0 [0x73, 0]).c.data := ⟨.inl rfl, .inr ⟨[], rfl⟩⟩

/-- A proof that is not right. -/
example : CodeReq (setData (List.replicate 20 0)) key [7, 7] (List.replicate 20 0) ∧
    List.replicate 20 0 ≠ hx.hmac 1 key [7, 7] :=
  ⟨⟨by decide, by decide, by decide, 1, rfl⟩, by decide⟩

theorem start_calm : Calm start := by
  intro p hp
  simp only [start, List.mem_cons, List.not_mem_nil, or_false] at hp
  rcases hp with rfl | rfl
  · exact ⟨fun _ h => (by cases h), fun _ => (by simp [allOk, cutsOnly]), fun i h => (by cases h; rfl)⟩
  · exact ⟨fun _ h => (by cases h), fun _ => (by simp [allOk, cutsOnly]), fun i h => (by cases h; rfl)⟩

/-- What the host computes after setting the code and selecting the applet. -/
example : (log hx exS start).foldl track ((sess exS).code, (sess exS).chal) = (some key, chal) := by decide +kernel

example : ValidateReq (valCmd (hx.hmac 1 key chal)).c.data (hx.hmac 1 key chal) [1, 1] ∧
    IsValidate (valCmd (hx.hmac 1 key chal)) := ⟨⟨by decide, by decide, by decide, rfl⟩, rfl⟩

/-- The right answer opens the session, the answer computed with another key does not. -/
example : (step hx (run hx exS start).1 (.apdu (valCmd (hx.hmac 1 key chal))) allOk).2 =
      .reply (.resp ([0x75, 20] ++ hx.hmac 1 key [1, 1]) SW.ok) ∧
    (step hx (run hx exS start).1 (.apdu (valCmd (hx.hmac 1 [5] chal))) allOk).2 = .reply (.sw SW.wrongData) := by
  decide +kernel

/-- Every session is opened by an answer to a challenge shown in that session: after the session has been
ended by a power-off of the card, no VALIDATE is accepted before SELECT has shown a challenge. -/
def FreshAnswers (x : Ext) : Prop :=
  ∀ (s : St) (h1 h2 : List (Op × Env)) (i : In) (e env : Env), (∀ p ∈ h2, ∀ j, p.1 = .apdu j → ¬ IsSelect j) →
    IsValidate i → ¬ Verif.Spec.OathCode.Ok (step x (run x s (h1 ++ (.powerOff, e) :: h2)).1 (.apdu i) env).2

/-- C99, the part that fails: the challenge survives the end of the session. A VALIDATE recorded in one
session is accepted again after a power-off of the card, by somebody who does not know the code. -/
theorem C99_refuted : ¬ FreshAnswers hx := by
  intro h
  have h1 := h exS (start ++ [(.apdu (valCmd (hx.hmac 1 key chal)), allOk)]) [] (valCmd (hx.hmac 1 key chal)) allOk allOk
    (by simp) rfl
  refine h1 ⟨[0x75, 20] ++ hx.hmac 1 key [1, 1], ?_⟩
  decide +kernel

end Verif.Oath.ExCode

namespace Verif.Card.Ex
open Verif.Card

/-- The card with the key-dependent HMAC. -/
def xc : Ext := { x with oath := Oath.ExCode.hx }
def ocmd (c : Oath.In) : Op := cmd c.c.ins c.c.p1 c.c.p2 c.c.data
def oVal : Op := ocmd (Oath.ExCode.valCmd (Oath.ExCode.hx.hmac 1 Oath.ExCode.key Oath.ExCode.chal))
def oList : Op := cmd 0xA1 0 0 []

/-- C99, the same on the whole card: set the code, select, validate, list; the card is powered off; the list
is refused; the recorded VALIDATE is sent again without SELECT and the list is given. -/
theorem C99_refuted_card : ((run xc ⟨blank, none⟩ [] (good [.boot rnd, select .oath, ocmd Oath.ExCode.setCmd, select .oath, oVal,
      oList, .power, oList, oVal, oList])).2.map fun e => (host e.2.2).map (·.2)).reverse =
    [none, some 0x9000, some 0x9000, some 0x9000, some 0x9000, some 0x9000, none, some 0x6982, some 0x9000, some 0x9000] := by
  decide +kernel

end Verif.Card.Ex
