import Verif.Lemmas.CardSince
import Verif.Spec.CardUse
import Verif.Props.Pgp
import Verif.Props.PivPin
/-
Properties of the whole card.
-/
namespace Verif.Card
open Spec.Card
open Apdu (Capdu Rapdu Applet)

variable {x : Ext}

/-! ### C92: the applets of a card do not meet -/

theorem Fits.shares {C : Comp x} {F : Face C.σ C.ο C.ω} (h : Fits C F) (hs : ∀ f s, F.same f s ↔ C.off f s)
    (s : St) (a : C.σ) (ha : Shares F s a) (H : List (Op × Env)) :
    ∃ hp, (∀ e ∈ hp, ∃ e' ∈ H, Rest e'.2 e.2) ∧ Shares F (run x s [] H).1 (runG C.step a [] hp).1 ∧
      Split F (run x s [] H).2 (runG C.step a [] hp).2 := by
  have view : ∀ (s : St) (a : C.σ), Shares F s a ↔ C.View (jSt s) a := by
    intro s a
    obtain ⟨f, ro⟩ := s
    unfold Shares Comp.View jSt
    dsimp only
    rw [hs f a]
    constructor
    · rintro ⟨h1, h2⟩
      refine ⟨fun r hr => ?_, h1⟩
      cases ro with
      | none => cases hr
      | some p => cases hr; exact (h2 p.1 p.2 rfl).trans (h.st _ _)
    · rintro ⟨h1, h2⟩
      refine ⟨h2, fun r d hr => ?_⟩
      cases hr
      exact (h1 r rfl).trans (h.st _ _).symm
  obtain ⟨hp, h1, h2, h3⟩ := h.history s a ((view s a).mp ha) H
  exact ⟨hp, h1, (view _ _).mpr h2, h3⟩

/-- C92, OpenPGP: whatever happens to the card, the OpenPGP applet goes through a history of its own, of which its part of
flash and RAM is the result, and which consists of nothing but the operations the card's history has for it (`Split`). -/
theorem C92_openpgp (x : Ext) (s : St) (a : Pgp.St) (ha : Shares pgpFace s a) (H : List (Op × Env)) :
    ∃ hp, (∀ e ∈ hp, ∃ e' ∈ H, Rest e'.2 e.2) ∧ Shares pgpFace (run x s [] H).1 (Pgp.run x.pgp a [] hp).1 ∧
      Split pgpFace (run x s [] H).2 (Pgp.run x.pgp a [] hp).2 := by
  obtain ⟨hp, h1, h2, h3⟩ := Fits.shares (C := pgpComp x) pgp_fits (fun _ _ => Iff.rfl) s a ha H
  have e := run_pgp x hp a []
  exact ⟨hp, h1, by rw [← e]; exact h2, by rw [← e]; exact h3⟩

/-- C92, PIV. -/
theorem C92_piv (x : Ext) (s : St) (a : Piv.St) (ha : Shares pivFace s a) (H : List (Op × Env)) :
    ∃ hp, (∀ e ∈ hp, ∃ e' ∈ H, Rest e'.2 e.2) ∧ Shares pivFace (run x s [] H).1 (Piv.run x.piv a [] hp).1 ∧
      Split pivFace (run x s [] H).2 (Piv.run x.piv a [] hp).2 := by
  obtain ⟨hp, h1, h2, h3⟩ := Fits.shares (C := pivComp x) piv_fits (fun _ _ => Iff.rfl) s a ha H
  have e := run_piv x hp a []
  exact ⟨hp, h1, by rw [← e]; exact h2, by rw [← e]; exact h3⟩

/-- C92, NDEF. -/
theorem C92_ndef (x : Ext) (s : St) (a : Ndef.St) (ha : Shares ndefFace s a) (H : List (Op × Env)) :
    ∃ hp l, (∀ e ∈ hp, ∃ e' ∈ H, Rest e'.2 e.2) ∧ Shares ndefFace (run x s [] H).1 (Ndef.run a [] hp).1 ∧
      Split ndefFace (run x s [] H).2 l ∧ obs l = (Ndef.run a [] hp).2 := by
  obtain ⟨hp, h1, h2, h3⟩ := Fits.shares (C := ndefComp x) ndef_fits (fun _ _ => Iff.rfl) s a ha H
  have e := run_ndef hp a []
  exact ⟨hp, _, h1, (congrArg Prod.fst e) ▸ h2, h3, congrArg Prod.snd e⟩

/-- C92, OATH and the passwords of the keyboard. -/
theorem C92_oath (x : Ext) (s : St) (a : Oath.St) (ha : Shares oathFace s a) (H : List (Op × Env)) :
    ∃ hp l, (∀ e ∈ hp, ∃ e' ∈ H, Rest e'.2 e.2) ∧ Shares oathFace (run x s [] H).1 (Oath.run x.oath a hp).1 ∧
      Split oathFace (run x s [] H).2 l ∧ l = (runG (Oath.step x.oath) a [] hp).2 ∧
      l.map (·.2.2) = (Oath.run x.oath a hp).2.reverse := by
  obtain ⟨hp, h1, h2, h3⟩ := Fits.shares (C := oathComp x) oath_fits (fun _ _ => Iff.rfl) s a ha H
  obtain ⟨e1, e2⟩ := run_oath x hp a []
  exact ⟨hp, _, h1, e1 ▸ h2, h3, rfl, e2.trans (List.append_nil _)⟩

/-- C92, FIDO. -/
theorem C92_fido (x : Ext) (s : St) (a : Ctap.St) (ha : Shares (ctapFace x) s a) (H : List (Op × Env)) :
    ∃ hp l, (∀ e ∈ hp, ∃ e' ∈ H, Rest e'.2 e.2) ∧ Shares (ctapFace x) (run x s [] H).1 (Ctap.run x.ctap a hp).1 ∧
      Split (ctapFace x) (run x s [] H).2 l ∧ l = (runG (Ctap.step x.ctap) a [] hp).2 ∧
      l.map (·.2.2) = (Ctap.run x.ctap a hp).2.reverse := by
  obtain ⟨hp, h1, h2, h3⟩ := Fits.shares (C := ctapComp x) ctap_fits (fun _ _ => Iff.rfl) s a ha H
  obtain ⟨e1, e2⟩ := run_ctap x hp a []
  exact ⟨hp, _, h1, e1 ▸ h2, h3, rfl, e2.trans (List.append_nil _)⟩

end Verif.Card
