import Verif.Spec.Ndef
import Verif.Base.Calc
/-
Effects of the NDEF operations.
-/
set_option linter.unusedSimpArgs false
namespace Verif.Ndef
open Verif.Spec.Ndef Cmd

variable {A : Fault → Prop} {i : In} {f : Flash} {r : Ram}

/-- A file of `n` bytes with contents `g`. -/
def Holds (d : Bytes) (n : Nat) (g : Nat → Byte) : Prop := d.length = n ∧ ∀ j, j < n → d.getD j 0 = g j

theorem holds_range (n : Nat) (g : Nat → Byte) : Holds ((List.range n).map g) n g := by
  refine ⟨by simp, fun j hj => ?_⟩
  simp [List.getD_eq_getElem?_getD, hj]

theorem eq_of_holds {d : Bytes} {n : Nat} {g : Nat → Byte} (h : Holds d n g) :
    d = (List.range n).map g := by
  apply List.ext_getElem
  · simp [h.1]
  · intro j h1 h2
    have := h.2 j (by rw [← h.1]; exact h1)
    simpa [List.getD_eq_getElem?_getD, h1] using this

theorem holds_congr {d : Bytes} {n : Nat} {g g' : Nat → Byte} (h : Holds d n g)
    (e : ∀ j, j < n → g j = g' j) : Holds d n g' := ⟨h.1, fun j hj => (h.2 j hj).trans (e j hj)⟩

theorem holds_patch {d x : Bytes} {n off : Nat} {g : Nat → Byte} (h : Holds d n g)
    (ho : off + x.length ≤ n) :
    Holds (patch d off x) n fun j => if off ≤ j ∧ j < off + x.length then x.getD (j - off) 0 else g j := by
  unfold patch
  split
  · next hx =>
    subst hx
    refine holds_congr h fun j _ => ?_
    have : ¬ (off ≤ j ∧ j < off + ([] : Bytes).length) := by simp
    rw [if_neg this]
  · have h0 : off - d.length = 0 := by rw [h.1]; omega
    rw [h0, List.replicate_zero, List.append_nil]
    have hl : (d.take off).length = off := by simp [h.1]; omega
    refine ⟨by simp [h.1]; omega, fun j hj => ?_⟩
    have hg := h.2 j hj
    show _ = if off ≤ j ∧ j < off + List.length x then List.getD x (j - off) 0 else g j
    rw [List.getD_eq_getElem?_getD] at hg ⊢
    by_cases h1 : j < off
    · rw [if_neg (by omega), List.append_assoc, List.getElem?_append_left (by omega),
        List.getElem?_take, if_pos h1]
      exact hg
    · by_cases h2 : j < off + x.length
      · rw [if_pos (by omega), List.append_assoc, List.getElem?_append_right (by omega), hl,
          List.getElem?_append_left (by omega), List.getD_eq_getElem?_getD]
      · rw [if_neg (by omega), List.getElem?_append_right (by simp [hl]; omega), List.getElem?_drop]
        have : off + x.length + (j - (List.take off d ++ x).length) = j := by
          simp only [List.length_append, hl]; omega
        rw [this]; exact hg

theorem readInto_eq {d : Bytes} {n off le : Nat} {g : Nat → Byte} {junk : Nat → Byte} (h : Holds d n g)
    (ho : off + le ≤ n) : readInto d off le junk = (List.range le).map fun k => g (off + k) := by
  have hl : ((d.drop off).take le).length = le := by simp [h.1]; omega
  unfold readInto
  simp only [hl, Nat.sub_self, List.range_zero, List.map_nil, List.append_nil]
  apply eq_of_holds
  refine ⟨hl, fun j hj => ?_⟩
  show _ = g (off + j)
  rw [← h.2 (off + j) (by omega), List.getD_eq_getElem?_getD, List.getD_eq_getElem?_getD,
    List.getElem?_take, if_pos hj, List.getElem?_drop]

/-- The command is well-formed and allowed. -/
def Fits (i : In) (r : Ram) : Prop :=
  (i.c.ins = 0xA4 ∧ i.c.p1 = 4 ∧ i.c.p2 = 0) ∨
  (i.c.ins = 0xA4 ∧ i.c.p1 = 0 ∧ i.c.p2 = 0x0C ∧
    (i.c.data.take 2 = [0xE1, 0x03] ∨ i.c.data.take 2 = [0x00, 0x01])) ∨
  (i.c.ins = 0xB0 ∧ r.sel = .cc ∧ offset i.c + i.c.le ≤ 15) ∨
  (i.c.ins = 0xB0 ∧ r.sel = .ndef ∧ ccR r = 0 ∧ offset i.c + i.c.le ≤ 1024) ∨
  (i.c.ins = 0xD6 ∧ r.sel = .ndef ∧ ccW r = 0 ∧ offset i.c + i.c.lc ≤ 1024)

/-- The outcomes of a command. -/
inductive CmdEff (A : Fault → Prop) (i : In) (f : Flash) (r : Ram) : Outcome Reply → Flash → Ram → Prop
  | refuse (sw : SW) (h : sw ≠ SW.ok) (hw : ¬ Fits i r ∨ A .fail ∨ f.cc = none ∨ f.ndef = none) :
      CmdEff A i f r (.done (.sw sw)) f r
  | cut (h : A .cut) : CmdEff A i f r .cut f r
  | app (hi : i.c.ins = 0xA4) (hp : i.c.p1 = 4) : CmdEff A i f r (.done (.sw SW.ok)) f r
  | selCc (hi : i.c.ins = 0xA4) (hp : i.c.p1 = 0) (hd : i.c.data.take 2 = [0xE1, 0x03]) :
      CmdEff A i f r (.done (.sw SW.ok)) f { r with sel := .cc }
  | selNdef (hi : i.c.ins = 0xA4) (hp : i.c.p1 = 0) (hd : i.c.data.take 2 = [0x00, 0x01]) :
      CmdEff A i f r (.done (.sw SW.ok)) f { r with sel := .ndef }
  | readCc (hi : i.c.ins = 0xB0) (hs : r.sel = .cc) (hl : offset i.c + i.c.le ≤ 15) (d : Bytes)
      (hd : f.cc = some d) :
      CmdEff A i f r (.done (.resp (readInto d (offset i.c) i.c.le i.junk) SW.ok)) f r
  | readNdef (hi : i.c.ins = 0xB0) (hs : r.sel = .ndef) (hr : ccR r = 0) (hl : offset i.c + i.c.le ≤ 1024)
      (d : Bytes) (hd : f.ndef = some d) :
      CmdEff A i f r (.done (.resp (readInto d (offset i.c) i.c.le i.junk) SW.ok)) f r
  | upd (hi : i.c.ins = 0xD6) (hs : r.sel = .ndef) (hw : ccW r = 0) (hl : offset i.c + i.c.lc ≤ 1024) :
      CmdEff A i f r (.done (.sw SW.ok))
        { f with ndef := some (patch (f.ndef.getD []) (offset i.c) i.c.data) } r

theorem take2 {d : Bytes} {a b : Byte} (h0 : d[0]? = some a) (h1 : d[1]? = some b) : d.take 2 = [a, b] := by
  match d with
  | [] => simp at h0
  | [_] => simp at h1
  | x :: y :: t => simp at h0 h1; simp [h0, h1]

/-- Closes the refusals of `process_eff`. -/
macro "nofit" : tactic => `(tactic| (
  rintro (⟨a, b, c⟩ | ⟨a, b, c, d | d⟩ | ⟨a, b, c⟩ | ⟨a, b, c, d⟩ | ⟨a, b, c, d⟩) <;>
    first | (simp_all [ccR, ccW]; done) | (simp_all [fileMax]; omega) |
      (have e := congrArg List.length d; simp [Apdu.Capdu.lc] at *; omega)))

theorem process_eff : wp A (process i) (fun a => CmdEff A i f r (.done a))
    (fun e => CmdEff A i f r (.done e)) (CmdEff A i f r .cut) f r := by
  unfold process
  apply wp_ite
  · intro hi
    have hi : i.c.ins = 0xA4 := by simpa using hi
    unfold select
    simp only [Cmd.throw_bind, Cmd.pure_bind]
    apply wp_ite
    · intro hp
      simp only [Bool.and_eq_true, beq_iff_eq] at hp
      exact wp_pure (.app hi hp.1)
    · intro _
      apply wp_ite
      · intro hno; exact wp_throw (.refuse _ (by decide) (.inl (by nofit)))
      · intro hp
        simp only [bne_iff_ne, ne_eq, Bool.or_eq_true, not_or, Decidable.not_not] at hp
        apply wp_ite
        · intro hno; exact wp_throw (.refuse _ (by decide) (.inl (by nofit)))
        · intro hl
          have hl : 2 ≤ i.c.data.length := by
            have : i.c.lc = i.c.data.length := rfl
            omega
          have e0 : i.c.data[0]? = some (i.c.data[0]'(by omega)) := by simp [show 0 < i.c.data.length by omega]
          have e1 : i.c.data[1]? = some (i.c.data[1]'(by omega)) := by simp [show 1 < i.c.data.length by omega]
          rw [rd_ok (by omega : 0 < i.c.data.length), rd_ok (by omega : 1 < i.c.data.length)]
          have h2 := take2 e0 e1
          simp only [Cmd.mem, Cmd.pure_bind]
          apply wp_ite
          · intro h
            simp only [Bool.and_eq_true, beq_iff_eq] at h
            apply wp_bind; apply wp_mod
            exact wp_pure (.selCc hi hp.1 (by rw [h2, h.1, h.2]))
          · intro _
            apply wp_ite
            · intro h
              simp only [Bool.and_eq_true, beq_iff_eq] at h
              apply wp_bind; apply wp_mod
              exact wp_pure (.selNdef hi hp.1 (by rw [h2, h.1, h.2]))
            · intro hno; exact wp_throw (.refuse _ (by decide) (.inl (by nofit)))
  · intro _
    apply wp_ite
    · intro hi
      have hi : i.c.ins = 0xB0 := by simpa using hi
      unfold readBinary
      simp only [Cmd.throw_bind]
      apply wp_ite
      · intro hno; exact wp_throw (.refuse _ (by decide) (.inl (by nofit)))
      · intro _
        apply wp_ite
        · intro hno; exact wp_throw (.refuse _ (by decide) (.inl (by nofit)))
        · intro _
          apply wp_bind; apply wp_get
          cases hs : r.sel with
          | none => exact wp_throw (.refuse _ (by decide) (.inl (by nofit)))
          | cc =>
            simp only
            apply wp_ite
            · intro hno; exact wp_throw (.refuse _ (by decide) (.inl (by nofit)))
            · intro hl
              apply wp_bind
              apply wp_rdOr
              · intro d hd; exact wp_pure (.readCc hi hs (by omega) d hd)
              · intro h; exact .refuse _ (by decide) (.inr (.inr (.inl h)))
              · intro h; exact .refuse _ (by decide) (.inr (.inl h))
              · exact .cut
          | ndef =>
            simp only
            apply wp_ite
            · intro hno; exact wp_throw (.refuse _ (by decide) (.inl (by nofit)))
            · intro hr
              apply wp_ite
              · intro hno; exact wp_throw (.refuse _ (by decide) (.inl (by nofit)))
              · intro hl
                apply wp_bind
                apply wp_rdOr
                · intro d hd; exact wp_pure (.readNdef hi hs (by simpa using hr) (by unfold fileMax at hl; omega) d hd)
                · intro h; exact .refuse _ (by decide) (.inr (.inr (.inr h)))
                · intro h; exact .refuse _ (by decide) (.inr (.inl h))
                · exact .cut
    · intro _
      apply wp_ite
      · intro hi
        have hi : i.c.ins = 0xD6 := by simpa using hi
        unfold update
        simp only [Cmd.throw_bind]
        apply wp_ite
        · intro hno; exact wp_throw (.refuse _ (by decide) (.inl (by nofit)))
        · intro _
          apply wp_ite
          · intro hno; exact wp_throw (.refuse _ (by decide) (.inl (by nofit)))
          · intro _
            apply wp_bind; apply wp_get
            cases hs : r.sel with
            | none => exact wp_throw (.refuse _ (by decide) (.inl (by nofit)))
            | cc => exact wp_throw (.refuse _ (by decide) (.inl (by nofit)))
            | ndef =>
              simp only
              apply wp_ite
              · intro hno; exact wp_throw (.refuse _ (by decide) (.inl (by nofit)))
              · intro hw
                apply wp_ite
                · intro hno; exact wp_throw (.refuse _ (by decide) (.inl (by nofit)))
                · intro hl
                  apply wp_bind
                  apply wp_wrOr
                  · intro f' hf
                    cases hf
                    exact wp_pure (.upd hi hs (by simpa using hw) (by unfold fileMax at hl; omega))
                  · intro h; cases h
                  · intro h; exact .refuse _ (by decide) (.inr (.inl h))
                  · exact .cut
      · intro hno; exact wp_throw (.refuse _ (by decide) (.inl (by nofit)))

/-- The outcomes of the admin command TOGGLE NDEF READ ONLY. -/
inductive TogEff (A : Fault → Prop) (c : Apdu.Capdu) (f : Flash) (r : Ram) :
    Outcome Reply → Flash → Ram → Prop
  | refuse (sw : SW) (h : sw ≠ SW.ok) (hp : c.p1 ≠ 0 ∧ c.p1 ≠ 1) : TogEff A c f r (.done (.sw sw)) f r
  | io (b : Byte) (h : A .fail) : TogEff A c f r (.done ioErr) f { r with cc := r.cc.set 14 b }
  | cut (r' : Ram) (h : A .cut) : TogEff A c f r .cut f r'
  | done (b : Byte) (hb : (c.p1 = 0 ∧ b = 0) ∨ (c.p1 = 1 ∧ b = 0xFF)) :
      TogEff A c f r (.done (.sw SW.ok)) { f with cc := some (r.cc.set 14 b) } { r with cc := r.cc.set 14 b }

theorem toggle_eff {c : Apdu.Capdu} : wp A (toggleReadOnly c) (fun a => TogEff A c f r (.done a))
    (fun e => TogEff A c f r (.done e)) (TogEff A c f r .cut) f r := by
  unfold toggleReadOnly
  simp only [Cmd.throw_bind]
  apply wp_ite
  · intro hp
    apply wp_bind; apply wp_mod
    apply wp_bind; apply wp_get
    apply wp_bind; apply wp_wrOr
    · intro f' hf; cases hf; exact wp_pure (.done 0 (.inl ⟨by simpa using hp, rfl⟩))
    · intro h; cases h
    · intro h; exact .io _ h
    · intro h; exact .cut _ h
  · intro h0
    apply wp_ite
    · intro hp
      apply wp_bind; apply wp_mod
      apply wp_bind; apply wp_get
      apply wp_bind; apply wp_wrOr
      · intro f' hf; cases hf; exact wp_pure (.done 0xFF (.inr ⟨by simpa using hp, rfl⟩))
      · intro h; cases h
      · intro h; exact .io _ h
      · intro h; exact .cut _ h
    · intro h1; exact wp_throw (.refuse _ (by decide) ⟨by simpa using h0, by simpa using h1⟩)

/-- Outcome of an installation that resets. -/
theorem install_reset_eff : wp noFault (install true)
    (fun a f' r' => a = .sw SW.ok ∧ f' = ⟨some defaultCc, some (resize initMsg 1024)⟩ ∧ r' = ⟨defaultCc, .none⟩)
    (fun _ _ _ => False) (fun _ _ => False) f r := by
  unfold install createInit
  simp only [if_true, Cmd.pure_bind]
  apply wp_bind; apply wp_mod
  apply wp_bind; apply wp_mod
  apply wp_bind
  apply wp_bind; apply wp_wrOr
  · intro f' hf; cases hf
    apply wp_wrOr
    · intro f' hf; cases hf
      apply wp_bind; apply wp_get
      apply wp_bind; apply wp_wrOr
      · intro f' hf; cases hf
        exact wp_pure ⟨rfl, rfl, rfl⟩
      · intro h; cases h
      · intro h; cases h
      · intro h; cases h
    · intro h; cases h
    · intro h; cases h
    · intro h; cases h
  · intro h; cases h
  · intro h; cases h
  · intro h; cases h

/-- Outcome of an installation that finds the applet installed. -/
theorem install_keep_eff {cc d : Bytes} (hc : f.cc = some cc) (hl : cc.length = 15) (hd : f.ndef = some d)
    (hn : d ≠ []) : wp cutsOnly (install false)
    (fun a f' r' => a = .sw SW.ok ∧ f' = f ∧ r'.cc = cc ++ r.cc.drop 15 ∧ r'.sel = .none)
    (fun _ _ _ => False) (fun f' _ => f' = f) f r := by
  unfold install
  simp only [Bool.false_eq_true, if_false]
  apply wp_bind; apply wp_mod
  apply wp_bind
  apply wp_bind; apply wp_rdF
  · intro _
    rw [hc]
    simp only [Option.map_some, hl, bne_self_eq_false, Bool.false_eq_true, if_false]
    apply wp_bind; apply wp_rdF
    · intro _
      rw [hd]
      apply wp_pure
      have : (((some d).map List.length).getD 0 == 0) = false := by simpa using hn
      rw [this]
      simp only [Bool.false_eq_true, if_false]
      apply wp_bind; apply wp_rdOr
      · intro a ha
        rw [hc] at ha; cases ha
        apply wp_bind; apply wp_mod
        refine wp_pure ⟨rfl, rfl, ?_, rfl⟩
        show cc.take 15 ++ (poweroff r).cc.drop cc.length = _
        rw [hl, List.take_of_length_le (by omega)]; rfl
      · intro h; rw [hc] at h; cases h
      · intro h; exact absurd rfl h
      · intro _; rfl
    · intro h; exact absurd rfl h
    · intro _; rfl
  · intro h; exact absurd rfl h
  · intro _; rfl

end Verif.Ndef
