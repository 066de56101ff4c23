import Verif.Props.CtapU2f
/-
C103: the hypotheses are met.
-/
namespace Verif.Ctap
open Toy

/-- Another registration is cut off, power returns, a PIN is set. -/
def uAfter : List (Op × Env) := lifeAfter
def uReg : Op := .u2f (envN 20001 5) (.register cdh rpA)
def uSt0 : St := (run ext produced lifeBefore).1
def uSt : St := (run ext (step ext uSt0 uReg fine).1 uAfter).1
/-- The key handle and the key of an answer. -/
def Out.handle : Out → Option (Bytes × Bytes)
  | .u2f (.registered c k) => some (c, k)
  | _ => none
def uCid : Bytes := ((step ext uSt0 uReg fine).2.handle.getD ([], [])).1
def uKey : Bytes := ((step ext uSt0 uReg fine).2.handle.getD ([], [])).2

theorem u_registered : (step ext uSt0 uReg fine).2 = .u2f (.registered uCid uKey) := by
  have : (step ext uSt0 uReg fine).2.handle.isSome = true := by decide +kernel
  unfold uCid uKey
  generalize (step ext uSt0 uReg fine).2 = o at *
  unfold Out.handle at *
  split at this
  · rfl
  · cases this

theorem u_ops : ∀ o ∈ uAfter, o.1.resets = false ∧ (o.1.powers = true → noFail o.2) := by
  intro o ho
  simp only [uAfter, lifeAfter, List.mem_cons, List.not_mem_nil, or_false] at ho
  rcases ho with rfl | rfl | rfl | rfl
  · exact ⟨rfl, nofun⟩
  · exact ⟨rfl, fun _ _ => nofun⟩
  · exact ⟨rfl, nofun⟩
  · exact ⟨rfl, nofun⟩

/-- The key handle is known, signs with the registered key, and is of no use to another application. -/
example : (∃ n, (step ext uSt (.u2f (env 30000) (.authenticate cdh rpA uCid false)) fine).2 = .u2f (.signed n uKey rpA cdh)) ∧
    (step ext uSt (.u2f (env 30000) (.authenticate cdh rpA uCid true)) fine).2 = .err swTouch ∧
    (step ext uSt (.u2f { env 30000 with touch := false } (.authenticate cdh rpA uCid false)) fine).2 = .err swTouch ∧
    (step ext uSt (.u2f (env 30000) (.authenticate cdh rpB uCid false)) fine).2 = .err swData := by
  obtain ⟨_, n, _, h1, h2, _, h4⟩ := C103_lasts toy_hmac uSt0 (by decide +kernel) (by decide +kernel) (envN 20001 5) (by decide)
    cdh rpA (by decide) fine uCid uKey u_registered uAfter u_ops uSt rfl (env 30000) cdh fine fun _ => rfl
  obtain ⟨_, _, _, _, _, h3, _⟩ := C103_lasts toy_hmac uSt0 (by decide +kernel) (by decide +kernel) (envN 20001 5) (by decide)
    cdh rpA (by decide) fine uCid uKey u_registered uAfter u_ops uSt rfl { env 30000 with touch := false } cdh fine fun _ => rfl
  exact ⟨⟨_, h2 (Or.inr rfl)⟩, h1, h3 (by rintro (h | h) <;> cases h), h4 rpB (by decide) false⟩

/-- A handle with one bit changed is not known. -/
example : (step ext uSt (.u2f (env 30000) (.authenticate cdh rpA ((uCid.headD 0 ^^^ 1) :: uCid.tail) true)) fine).2 = .err swData := by
  decide +kernel

theorem u_asks : Asks ext uSt (env 11005) (gaReq rpA [uCid] .absent none) uCid false where
  rp := by decide +kernel
  allow := ⟨[], [], rfl, nofun⟩
  rk := rfl
  hs := nofun
  up := Or.inr (Or.inr rfl)
  plain _ := ⟨rfl, nofun⟩
  verified := nofun
  protect := by decide +kernel
  alg := Or.inl (by decide +kernel)

/-- And CTAP2 uses the registered key. -/
example : ∃ g, (step ext uSt (.cbor (env 11005) (.ga (.ok (gaReq rpA [uCid] .absent none)))) fine).2 = .resp (.ga g) ∧ g.key = uKey := by
  obtain ⟨g, n, h1, _, h2, _⟩ := C103_ctap2 toy_hmac produced produced_unused (by decide +kernel) (by decide +kernel) lifeBefore lifeBefore_fair
    (envN 20001 5) (by decide) cdh rpA (by decide) fine ⟨rfl, fun _ _ => nofun, trivial⟩ uCid uKey u_registered uAfter (lifeAfter_fair _)
    uSt rfl (env 11005) (gaReq rpA [uCid] .absent none) false u_asks fine fun _ => rfl
  exact ⟨g, h1, h2⟩

end Verif.Ctap
