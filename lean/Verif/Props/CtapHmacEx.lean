import Verif.Props.CtapHmac
import Verif.Props.CtapReset
/-
C104: the hypotheses are met.
-/
namespace Verif.Ctap
open Toy

theorem toy_lawful : ext.Lawful where
  inv _ _ _ _ := rfl
  len _ _ _ := rfl
  hmac := toy_hmac

/-- Two resident credentials of one relying party, with large-blob keys. -/
def hSt : St := (run ext produced (histN [(20000, 1, .mc (.ok { mcReq rpA user1 .yes 1 none with lbk := true })),
  (20001, 2, .mc (.ok { mcReq rpA user2 .yes 1 none with lbk := true }))])).1
/-- Two salts, sent with protocol 1 or 2. -/
def hSalts : Bytes := List.replicate 32 1 ++ List.replicate 32 2
def hReq1 : HmacSecret := ⟨[5], hSalts, 64, (hmac ((sha [5]).take 32) hSalts).take 16, 1⟩
def hShared : Bytes := (decapsulate ext 0 [5] 2).getD []
def hReq2 : HmacSecret := ⟨[5], List.replicate 16 9 ++ hSalts, 80, hmac (hShared.take 32) (List.replicate 16 9 ++ hSalts), 2⟩
def hGa (h : HmacSecret) : GaReq := { gaReq rpA [] .absent none with hs := some h }

def hAfter : List (Op × Env) := [(.cbor (env 30001) (.ga (.ok (gaReq rpB [] .absent none))), cutAt 1), (.powerOn (env 0), fine)]

theorem h_asked (h : HmacSecret) (hh : h = hReq1 ∨ h = hReq2) : ∃ g, (step ext hSt (.cbor (env 30000) (.ga (.ok (hGa h)))) fine).2 = .resp (.ga g) ∧
    g.hmacSecret.isSome = true := by
  rcases hh with rfl | rfl
  · exact of_asserted (p := fun g => g.hmacSecret.isSome = true) (by decide +kernel)
  · exact of_asserted (p := fun g => g.hmacSecret.isSome = true) (by decide +kernel)

/-- Both protocols give outputs, which the platform decrypts. -/
example (h : HmacSecret) (hh : h = hReq1 ∨ h = hReq2) : ∃ g he z salts, (step ext hSt (.cbor (env 30000) (.ga (.ok (hGa h)))) fine).2 = .resp (.ga g) ∧
    Salted ext hSt.ram.ka h z salts ∧ Yields ext he z salts h.proto g := by
  obtain ⟨g, hg, _⟩ := h_asked h hh
  obtain ⟨he, z, salts, _, h2, _, h4⟩ := C104_output toy_lawful hSt (env 30000) (by decide) (hGa h) h rfl
    (by rcases hh with rfl | rfl <;> decide) fine g hg
  exact ⟨g, he, z, salts, hg, h2, h4⟩

theorem h_after : ∀ o ∈ hAfter, o.1.resets = false ∧ (o.1.powers = true → noFail o.2) := by
  intro o ho
  simp only [hAfter, List.mem_cons, List.not_mem_nil, or_false] at ho
  rcases ho with rfl | rfl
  · exact ⟨rfl, nofun⟩
  · exact ⟨rfl, fun _ _ => nofun⟩

theorem toy_decrypt1 (z b : Bytes) : decrypt ext z b 1 = some b := rfl
theorem toy_decrypt2 (z b : Bytes) (h : 16 ≤ b.length) : decrypt ext z b 2 = some (b.drop 16) := by
  unfold decrypt
  simp [ext, Nat.not_lt.mpr h]

/-- The same outputs through another protocol after a power cut. -/
example : ∃ g g' z salts z' salts' o o' p, (step ext hSt (.cbor (env 30000) (.ga (.ok (hGa hReq1)))) fine).2 = .resp (.ga g) ∧
    (step ext (run ext (step ext hSt (.cbor (env 30000) (.ga (.ok (hGa hReq1)))) fine).1 hAfter).1
      (.cbor (env 30000) (.ga (.ok (hGa hReq2)))) fine).2 = .resp (.ga g') ∧
    Salted ext hSt.ram.ka hReq1 z salts ∧
    Salted ext (run ext (step ext hSt (.cbor (env 30000) (.ga (.ok (hGa hReq1)))) fine).1 hAfter).1.ram.ka hReq2 z' salts' ∧
    g.hmacSecret = some o ∧ g'.hmacSecret = some o' ∧ o ≠ o' ∧ decrypt ext z o 1 = some p ∧ decrypt ext z' o' 2 = some p := by
  obtain ⟨g, hg, h1, h2, h3⟩ := of_asserted (o := (step ext hSt (.cbor (env 30000) (.ga (.ok (hGa hReq1)))) fine).2)
    (p := fun g => g.cid = lastCid produced (histN [(20000, 1, .mc (.ok { mcReq rpA user1 .yes 1 none with lbk := true })),
      (20001, 2, .mc (.ok { mcReq rpA user2 .yes 1 none with lbk := true }))]) ∧ g.ad.uv = false ∧
      g.hmacSecret.any (fun o => decide (o.length = 64)) = true) (by decide +kernel)
  obtain ⟨g', hg', h1', h2', h3'⟩ := of_asserted
    (o := (step ext (run ext (step ext hSt (.cbor (env 30000) (.ga (.ok (hGa hReq1)))) fine).1 hAfter).1
      (.cbor (env 30000) (.ga (.ok (hGa hReq2)))) fine).2)
    (p := fun g => g.cid = lastCid produced (histN [(20000, 1, .mc (.ok { mcReq rpA user1 .yes 1 none with lbk := true })),
      (20001, 2, .mc (.ok { mcReq rpA user2 .yes 1 none with lbk := true }))]) ∧ g.ad.uv = false ∧
      g.hmacSecret.any (fun o => decide (o.length = 80)) = true) (by decide +kernel)
  obtain ⟨z, salts, z', salts', o, o', p, p', a1, a2, a3, a4, a5, a6, a7⟩ := C104_stable toy_lawful hSt (by decide +kernel) (env 30000) (by decide)
    (hGa hReq1) hReq1 rfl (by decide) fine g hg hAfter h_after _ rfl (env 30000) (by decide) (hGa hReq2) hReq2 rfl (by decide) fine g' hg'
    (h1'.trans h1.symm) (h2'.trans h2.symm)
  have e1 : salts = hReq1.salt.take hReq1.saltLen := (Option.some.inj (a1.sent.symm.trans (toy_decrypt1 _ _)))
  have e2 : salts' = (hReq2.salt.take hReq2.saltLen).drop 16 := (Option.some.inj (a2.sent.symm.trans (toy_decrypt2 _ _ (by decide +kernel))))
  have e3 : hReq1.salt.take hReq1.saltLen = (hReq2.salt.take hReq2.saltLen).drop 16 := by decide +kernel
  have a7 := a7 (e1.trans (e3.trans e2.symm))
  subst a7
  refine ⟨g, g', z, salts, z', salts', o, o', p, hg, hg', a1, a2, a3, a5, ?_, a4, a6⟩
  rintro rfl
  rw [a3] at h3
  rw [a5] at h3'
  simp at h3 h3'
  omega

theorem run_one (x : Ext) (s : St) (o : Op) (e : Env) {a : Out} (h : (step x s o e).2 = a) : (run x s [(o, e)]).2 = [a] := by
  rw [← h]
  rfl

/-- getNextAssertion gives the outputs of the other credential. -/
example : ∃ g he z salts, Salted ext hSt.ram.ka hReq1 z salts ∧ Yields ext he z salts 1 g ∧
    ∃ g', (step ext (step ext hSt (.cbor (env 30000) (.ga (.ok (hGa hReq1)))) fine).1 (.cbor (env 30001) .gna) fine).2 = .resp (.ga g') ∧
      g'.cid ≠ g.cid ∧ Yields ext he z salts 1 g' := by
  obtain ⟨g, hg, h1⟩ := of_asserted (o := (step ext hSt (.cbor (env 30000) (.ga (.ok (hGa hReq1)))) fine).2)
    (p := fun g => g.cid.getD 20 0 = 2) (by decide +kernel)
  obtain ⟨g', hg', h2⟩ := of_asserted (o := (step ext (step ext hSt (.cbor (env 30000) (.ga (.ok (hGa hReq1)))) fine).1 (.cbor (env 30001) .gna) fine).2)
    (p := fun g => g.cid.getD 20 0 = 1) (by decide +kernel)
  obtain ⟨he, z, salts, a1, a2, a3⟩ := C104_next toy_lawful hSt (by decide +kernel) (env 30000) (by decide) (hGa hReq1) hReq1 rfl (by decide) fine g hg
    [(.cbor (env 30001) .gna, fine)] (by intro o ho; cases List.mem_singleton.mp ho; exact ⟨rfl, nofun⟩)
    (by intro o ho j q' e; cases List.mem_singleton.mp ho; cases e)
    (by intro o ho j e; cases List.mem_singleton.mp ho; cases e; decide)
    (by
      intro u hu
      rw [run_one ext _ _ _ hg'] at hu
      cases List.mem_singleton.mp hu)
  refine ⟨g, he, z, salts, a1, a2, g', hg', ?_, a3 g' ?_⟩
  · intro e
    rw [e, h1] at h2
    cases h2
  · rw [run_one ext _ _ _ hg']
    exact List.mem_singleton.mpr rfl

/-- makeCredential and getAssertion give the large-blob key of a credential. -/
example : ∃ a a' c k, (step ext produced (.cbor (envN 20000 1) (.mc (.ok { mcReq rpA user1 .yes 1 none with lbk := true }))) fine).2 = .resp a ∧
    (step ext (run ext (step ext produced (.cbor (envN 20000 1) (.mc (.ok { mcReq rpA user1 .yes 1 none with lbk := true }))) fine).1 hAfter).1
      (.cbor (env 30000) (ga rpA [] .absent none)) fine).2 = .resp a' ∧ a.blobKey = some (c, k) ∧ a'.blobKey = some (c, k) := by
  have h : ∃ a a' c k k', (step ext produced (.cbor (envN 20000 1) (.mc (.ok { mcReq rpA user1 .yes 1 none with lbk := true }))) fine).2 = .resp a ∧
      (step ext (run ext (step ext produced (.cbor (envN 20000 1) (.mc (.ok { mcReq rpA user1 .yes 1 none with lbk := true }))) fine).1 hAfter).1
      (.cbor (env 30000) (ga rpA [] .absent none)) fine).2 = .resp a' ∧ a.blobKey = some (c, k) ∧ a'.blobKey = some (c, k') := by
    have h : (match (step ext produced (.cbor (envN 20000 1) (.mc (.ok { mcReq rpA user1 .yes 1 none with lbk := true }))) fine).2,
      (step ext (run ext (step ext produced (.cbor (envN 20000 1) (.mc (.ok { mcReq rpA user1 .yes 1 none with lbk := true }))) fine).1 hAfter).1
      (.cbor (env 30000) (ga rpA [] .absent none)) fine).2 with
      | .resp a, .resp a' => (match a.blobKey, a'.blobKey with
        | some (c, _), some (c', _) => decide (c = c')
        | _, _ => false)
      | _, _ => false) = true := by decide +kernel
    split at h
    · split at h
      · rename_i a a' h1 h2 _ _ c k c' k' h3 h4
        have := of_decide_eq_true h
        subst this
        exact ⟨_, _, _, _, _, h1, h2, h3, h4⟩
      · cases h
    · cases h
  obtain ⟨a, a', c, k, k', h1, h2, h3, h4⟩ := h
  have := C104_blobKey produced (by decide +kernel) _ _ fine fine a a' c k k' rfl nofun h1 h3 hAfter h_after h2 h4
  subst this
  exact ⟨a, a', c, _, h1, h2, h3, h4⟩

end Verif.Ctap
