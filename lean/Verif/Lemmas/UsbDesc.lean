import Verif.Spec.Usb
/-
The descriptors of the model are those of the specification.
-/
namespace Verif.Usb
open Verif.Spec.Usb

theorem patch_nil : patch i a b z [] = .ok [] := by rw [patch]

/-- A descriptor that is neither of an interface nor of an endpoint. -/
theorem patch_other (t : Byte) (d rest : Bytes) (l : Byte) (hl : l.toNat = d.length + 2) (h4 : t ≠ 4) (h5 : t ≠ 5)
    {more : Bytes} (hm : patch i a b z rest = .ok more) :
    patch i a b z (l :: t :: d ++ rest) = .ok (l :: t :: d ++ more) := by
  rw [List.cons_append, patch]
  have h0 : ¬ (l = 0 ∨ (t :: d ++ rest).length < l.toNat - 1) := by
    simp only [List.length_append, List.length_cons, hl]
    rintro (h | h)
    · rw [h] at hl; simp at hl
    · omega
  have e1 : (l :: (t :: d ++ rest)).take l.toNat = l :: t :: d := by
    rw [hl, show d.length + 2 = (l :: t :: d).length from rfl, ← List.cons_append, List.take_left]
  have e2 : (t :: d ++ rest).drop (l.toNat - 1) = rest := by
    rw [hl, show d.length + 2 - 1 = (t :: d).length from rfl, List.drop_left]
  rw [if_neg h0, e1, e2, hm]
  simp [rd, h4, h5, Bind.bind, Except.bind, pure, Except.pure]

theorem patch_interface (x0 x1 x2 x3 x4 x5 x6 : Byte) (rest : Bytes) {more : Bytes} (hm : patch i a b z rest = .ok more) :
    patch i a b z (9 :: 4 :: x0 :: x1 :: x2 :: x3 :: x4 :: x5 :: x6 :: rest) = .ok (9 :: 4 :: i :: x1 :: x2 :: x3 :: x4 :: x5 :: x6 :: more) := by
  rw [patch]
  simp [rd, wr, hm, Bind.bind, Except.bind, pure, Except.pure]

theorem patch_endpoint (x0 x1 x2 x3 x4 : Byte) (rest : Bytes) {more : Bytes} (hm : patch i a b z rest = .ok more) :
    patch i a b z (7 :: 5 :: x0 :: x1 :: x2 :: x3 :: x4 :: rest) =
      .ok (7 :: 5 :: (if x0 = 0xFF then a else b) :: x1 :: z :: x3 :: x4 :: more) := by
  rw [patch]
  simp [rd, wr, hm, Bind.bind, Except.bind, pure, Except.pure]

set_option maxRecDepth 8000 in
theorem configDesc_eq (c : Cfg) : configDesc c = .ok (configuration c) := by
  have e1 : patch c.ifCtap (0x80 ||| c.epCtap) c.epCtap c.szCtap ifCtapDesc = .ok (function c.ifCtap 3 0x10 (hid ctapReport) c.epCtap 3 c.szCtap 2 5) :=
    patch_interface _ _ _ _ _ _ _ _ (patch_other 0x21 [0x11, 0x01, 0x00, 0x01, 0x22, 34, 0x00] _ 9 rfl (by decide) (by decide)
      (patch_endpoint _ _ _ _ _ _ (patch_endpoint _ _ _ _ _ _ patch_nil)))
  have e2 : patch c.ifWeb 0 0 0 ifWebDesc = .ok (interface c.ifWeb 0 0xFF 0xFF 0xFF 0x12) := patch_interface _ _ _ _ _ _ _ _ patch_nil
  have e3 : patch c.ifCcid (0x80 ||| c.epCcid) c.epCcid c.szCcid ifCcidDesc = .ok (function c.ifCcid 0x0B 0x11 smartCard c.epCcid 2 c.szCcid 0 0) :=
    patch_interface _ _ _ _ _ _ _ _ (patch_other 0x21 (smartCard.drop 2) _ 54 rfl (by decide) (by decide)
      (patch_endpoint _ _ _ _ _ _ (patch_endpoint _ _ _ _ _ _ patch_nil)))
  have e4 : patch c.ifKbd (0x80 ||| c.epKbd) c.epKbd c.szKbd ifKbdDesc = .ok (function c.ifKbd 3 0x13 (hid kbdReport) c.epKbd 3 c.szKbd 10 5) :=
    patch_interface _ _ _ _ _ _ _ _ (patch_other 0x21 [0x11, 0x01, 0x00, 0x01, 0x22, 87, 0x00] _ 9 rfl (by decide) (by decide)
      (patch_endpoint _ _ _ _ _ _ (patch_endpoint _ _ _ _ _ _ patch_nil)))
  by_cases hk : c.ifKbd = 0xFF
  · simp only [configDesc, e1, e2, e3, hk, ne_eq, not_true_eq_false, if_false]
    simp only [configuration, functions, hk, ne_eq, not_true_eq_false, if_false]
    rfl
  · simp only [configDesc, e1, e2, e3, e4, hk, ne_eq, not_false_eq_true, if_true]
    simp only [configuration, functions, hk, ne_eq, not_false_eq_true, if_true]
    rfl

end Verif.Usb
