import Verif.Props.CardReset
import Verif.Props.CardEx
/-
Cases that meet the hypotheses of C95, and a reset that is reported although nothing was erased.
-/
namespace Verif.Card.Ex
open Verif.Card Spec.Card
open Apdu (Capdu Rapdu Applet)

/-- A card with a FIDO PIN. -/
def fidoCard : Flash := { blank with others := { blank.others with
  ctap := ⟨some ⟨[], none, some 5, some [1, 2, 3], some 8, some [7], some [8], some ⟨false, 0⟩⟩, some ⟨[], some ⟨0, 0, false, false⟩⟩, some [],
    some [1, 2], none⟩ } }

/-- Every storage operation fails. -/
def failing : Env := fun _ => .fail

abbrev onFido (h : List Op) : St := (run x ⟨fidoCard, none⟩ [] (good h)).1
def blockAdm : List Op := [.boot rnd, select .admin, cmd 0x20 0 0 [0, 0, 0, 0, 0, 0], cmd 0x20 0 0 [0, 0, 0, 0, 0, 0],
  cmd 0x20 0 0 [0, 0, 0, 0, 0, 0]]

/-- What a command is to the applet that gets it, under any faults. -/
theorem handed' {s : St} {c : Capdu} {i : In} {env : Env} {k : Call} (hon : s.ram.isSome = true)
    (h : (step x s (.apdu c i) env).2.call = some k) : Handed k.to (s, .apdu c i, (step x s (.apdu c i) env).2) i k :=
  ⟨fun h => (by rw [h] at hon; cases hon), ⟨c, rfl⟩, h, rfl⟩

theorem good_cuts : Env.good.all cutsOnly := fun _ => by intro h; cases h

/-- RESET CTAP removes the PIN and makes new secrets. -/
example (s : St) (hs : (run x ⟨fidoCard, none⟩ [] (good admStart)).1 = s) :
    ∃ c, (step x s (cmd 0x09 0 0 []) Env.good).1.flash = setOthers s.flash { s.flash.others with ctap := c } ∧
      FidoErased rnd.ctap c := by
  have e1 : (run x ⟨fidoCard, none⟩ [] (good admStart)).1.ram.isSome = true := by decide +kernel
  have e2 : (step x (run x ⟨fidoCard, none⟩ [] (good admStart)).1 (cmd 0x09 0 0 []) Env.good).2.call =
    some ⟨false, .admin, ⟨0, 0x09, 0, 0, [], 256⟩, some (.sw 0x9000)⟩ := by decide +kernel
  rw [hs] at e1 e2
  obtain ⟨c, h1, h2⟩ := (C95_reset_erases_partial s _ _ _ _ (handed' e1 e2) rfl).2.2.2.2.2 rfl
  exact ⟨c, h1, h2 good_cuts⟩

/-- RESET OPENPGP after a key was made. -/
example (s : St) (hs : (run x ⟨blank, none⟩ [] (good (pgpStart ++ [select .admin, verifyAdm]))).1 = s) :
    (step x s (cmd 0x03 0 0 []) Env.good).1.flash = setOthers s.flash { s.flash.others with pgp := Spec.Pgp.factory } := by
  have e1 : (run x ⟨blank, none⟩ [] (good (pgpStart ++ [select .admin, verifyAdm]))).1.ram.isSome = true := by decide +kernel
  have e2 : (step x (run x ⟨blank, none⟩ [] (good (pgpStart ++ [select .admin, verifyAdm]))).1 (cmd 0x03 0 0 []) Env.good).2.call =
    some ⟨false, .admin, ⟨0, 0x03, 0, 0, [], 256⟩, some (.sw 0x9000)⟩ := by decide +kernel
  rw [hs] at e1 e2
  exact (C95_reset_erases_partial s _ _ _ _ (handed' e1 e2) rfl).1 rfl

/-- FACTORY RESET once the admin PIN is blocked. -/
example (s : St) (hs : (run x ⟨fidoCard, none⟩ [] (good blockAdm)).1 = s) :
    ResetAll (Env.good.all cutsOnly) rnd s.flash (step x s (cmd 0x50 0 0 Admin.magic) Env.good).1.flash := by
  have e1 : (run x ⟨fidoCard, none⟩ [] (good blockAdm)).1.ram.isSome = true := by decide +kernel
  have e2 : (step x (run x ⟨fidoCard, none⟩ [] (good blockAdm)).1 (cmd 0x50 0 0 Admin.magic) Env.good).2.call =
    some ⟨false, .admin, ⟨0, 0x50, 0, 0, Admin.magic, 256⟩, some (.sw 0x9000)⟩ := by decide +kernel
  rw [hs] at e1 e2
  exact C95_factory_erases_partial s _ _ _ _ (handed' e1 e2) rfl rfl

/-- C95 is false for FIDO when the storage fails: RESET CTAP is answered with 9000 although nothing was erased, and so is
FACTORY RESET: `ctap_install` reports an error with the positive number 0xF1, and the admin applet looks for negative
ones. -/
theorem C95_refuted :
    (∃ s env, host (step x s (cmd 0x09 0 0 []) env).2 = some ([], 0x9000) ∧ s.flash.others.ctap.pinHash = some [1, 2, 3] ∧
      (step x s (cmd 0x09 0 0 []) env).1.flash.others.ctap = s.flash.others.ctap) ∧
    ∃ s env, host (step x s (cmd 0x50 0 0 Admin.magic) env).2 = some ([], 0x9000) ∧
      s.flash.others.ctap.pinHash = some [1, 2, 3] ∧
      (step x s (cmd 0x50 0 0 Admin.magic) env).1.flash.others.ctap.pinHash = some [1, 2, 3] := by
  refine ⟨⟨(run x ⟨fidoCard, none⟩ [] (good admStart)).1, failing, ?_, ?_, ?_⟩,
    ⟨(run x ⟨fidoCard, none⟩ [] (good blockAdm)).1, fun n => if n = 78 then .fail else .ok, ?_, ?_, ?_⟩⟩ <;> decide +kernel

end Verif.Card.Ex
