import Verif.Spec.Oath
/-
A concrete device used to show that the hypotheses of the OATH theorems are met, and for the
counterexamples.
-/
namespace Verif.Oath
open Verif.Spec.Oath

/-- An HMAC with 20 bytes that depend on the message. -/
def exX : Ext := ⟨fun _ _ m => (m ++ List.replicate 20 4).take 20⟩
/-- HOTP, SHA-1, 6 digits, counter 5. -/
def exH : Rec := ⟨[0x68], 0x11, 6, [1, 2, 3], 0, [0, 0, 0, 0, 0, 0, 0, 5]⟩
/-- HOTP at the maximum counter. -/
def exM : Rec := ⟨[0x6D], 0x11, 6, [1, 2, 3], 0, [255, 255, 255, 255, 255, 255, 255, 255]⟩
/-- TOTP, increasing only, last challenge 9. -/
def exT : Rec := ⟨[0x74], 0x21, 8, [4, 5], 1, [0, 0, 0, 0, 0, 0, 0, 9]⟩
def exFlash : Flash := ⟨some ⟨[exH, exT, exM], some [], some [9, 9, 9, 9, 9, 9, 9, 9]⟩,
  some (.oath 0 [0x68] 1, .static [0x70, 0x77] 0)⟩
def exRam : Ram := { Ram.init with validated := true, slot0 := .oath 0 [0x68] 1, slot1 := .static [0x70, 0x77] 0 }
/-- Three credentials, the short touch types codes of the first, no access code. -/
def exS : St := ⟨exFlash, exRam⟩
/-- The same with access code `1 2 3`, not validated. -/
def exL : St := ⟨{ exFlash with oath := some ⟨[exH, exT, exM], some [1, 2, 3], some [9, 9, 9, 9, 9, 9, 9, 9]⟩ },
  { exRam with validated := false }⟩
/-- A command over USB without touch. -/
def exCmd (ins p1 p2 : Byte) (d : Bytes) (le : Nat := 256) : In :=
  { c := ⟨0, ins, p1, p2, d, le⟩, nfc := false, touch := false, rnd := [1, 2, 3, 4, 5, 6, 7, 8] }
/-- Data of PUT of a new TOTP credential `z`. -/
def exPut : Bytes := [0x71, 1, 0x7A, 0x73, 4, 0x21, 6, 1, 2]
def exNew : Rec := ⟨[0x7A], 0x21, 6, [1, 2], 0, [0, 0, 0, 0, 0, 0, 0, 0]⟩
/-- Data of CALCULATE of `t` with challenge `c`. -/
def exCalc (c : Byte) : Bytes := [0x71, 1, 0x74, 0x74, 8, 0, 0, 0, 0, 0, 0, 0, c]
/-- No faults. -/
def allOk : Env := fun _ => .ok

theorem exX_good : GoodHmac exX := by
  intro a k m; simp [exX]

theorem exS_valid : Valid exS.flash := by
  intro o ho
  simp only [exS, exFlash, Option.some.injEq] at ho
  subst ho
  refine ⟨by decide, ?_, ?_⟩
  · intro r hr
    simp only [List.mem_cons, List.not_mem_nil, or_false] at hr
    rcases hr with rfl | rfl | rfl <;> exact ⟨by decide, by decide, by decide, by decide, by decide⟩
  · intro j k r s hj hk hn he
    have h1 := (List.getElem?_eq_some_iff.mp hj).1
    have h2 := (List.getElem?_eq_some_iff.mp hk).1
    simp at h1 h2
    have a : j = 0 ∨ j = 1 ∨ j = 2 := by omega
    have b : k = 0 ∨ k = 1 ∨ k = 2 := by omega
    rcases a with rfl | rfl | rfl <;> rcases b with rfl | rfl | rfl <;> simp at hj hk <;> subst hj <;> subst hk <;>
      first | rfl | (exact absurd he (by decide))

theorem exL_valid : Valid exL.flash := by
  intro o ho
  simp only [exL, exFlash, Option.some.injEq] at ho
  subst ho
  exact exS_valid ⟨[exH, exT, exM], some [], some [9, 9, 9, 9, 9, 9, 9, 9]⟩ rfl

theorem exPut_req : PutReq exPut exNew [] [] :=
  ⟨⟨by decide, by decide⟩, by decide, by decide, by decide, by decide, .inl ⟨rfl, rfl⟩, .inl ⟨rfl, rfl⟩, rfl⟩

theorem exName (n : Byte) (rest : Bytes) : NameReq ([0x71, 1, n] ++ rest) [n] :=
  ⟨⟨by simp, by simp⟩, rest, rfl⟩

theorem exCalc_req (c : Byte) : CalcReq (exCalc c) [0x74] [0, 0, 0, 0, 0, 0, 0, c] :=
  ⟨⟨by simp, by simp⟩, by simp, by simp, [], rfl⟩

theorem exOk : Env.all cutsOnly allOk := fun _ => by simp [cutsOnly, allOk]

end Verif.Oath
