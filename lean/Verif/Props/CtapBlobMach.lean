import Verif.Lemmas.CtapBlobMach
import Verif.Lemmas.CtapWideParse
import Verif.Props.CtapStore
/-
Large blobs follow a small machine: property C111.
-/
namespace Verif.Ctap.Parse

theorem u16_lt (v : Cbor) : Safe (u16Of v) fun n => n < 65536 := by
  unfold u16Of
  refine safe_bind ?_
  refine (safe_intOf (Q := fun _ => True) fun _ _ _ _ => trivial).mono fun a _ => ?_
  exact safe_bind (safe_refuseIf fun _ => safe_pure (by omega))

theorem off_lbEntry (k : Int) (v : Cbor) (s : LbP) (hs : s.q.offset < 65536) : Safe (lbEntry k v s) fun s => s.q.offset < 65536 := by
  unfold lbEntry
  apply safe_ite <;> intro _
  · exact safe_bind ((u16_lt _).mono fun _ _ => safe_pure hs)
  apply safe_ite <;> intro _
  · exact safe_bind (safe_bytesOf fun _ _ => safe_pure hs)
  apply safe_ite <;> intro _
  · exact safe_bind ((u16_lt _).mono fun _ h => safe_pure h)
  apply safe_ite <;> intro _
  · exact safe_bind ((u16_lt _).mono fun _ _ => safe_pure hs)
  apply safe_ite <;> intro _
  · exact safe_bind ((safe_protoOf _).mono fun _ _ => safe_pure hs)
  apply safe_ite <;> intro _
  · refine safe_bind (safe_bytesOf fun b _ => safe_bind (safe_refuseIf fun h => ?_))
    simp at h
    safes
  · exact safe_pure hs

theorem sane_parseLb (v : Cbor) : Safe (parseLb v) fun q => q.offset < 65536 ∧ (q.get = none → q.offset = 0 → 17 ≤ q.length ∧ q.length ≤ 4096) := by
  unfold parseLb
  refine safe_bind (safe_entriesOf fun l _ => safe_bind ((safe_eachInt (I := fun s : LbP => s.q.offset < 65536)
    (fun k v s hs => off_lbEntry k v s hs) l (by decide)).mono fun s hs => ?_))
  refine safe_bind (safe_refuseIf fun _ => safe_bind (safe_refuseIf fun h1 => safe_bind (safe_refuseIf fun _ => safe_bind (safe_refuseIf fun _ => ?_))))
  refine safe_bind (safe_refuseIf fun _ => ?_)
  refine safe_bind (safe_refuseIf fun _ => safe_bind (safe_refuseIf fun _ => safe_bind (safe_refuseIf fun h2 => safe_bind (safe_refuseIf fun h3 => ?_))))
  refine safe_bind (safe_refuseIf fun _ => safe_pure ⟨hs, fun hg h0 => ?_⟩)
  rw [hg] at h1
  simp [h0] at h1 h2 h3
  cases hset : s.set with
  | none => rw [hset] at h1; simp at h1
  | some b =>
    rw [hset] at h2 h3
    simp at h2 h3
    exact ⟨h3, h2⟩

end Verif.Ctap.Parse

namespace Verif.Props
open Verif.Ctap Verif.Spec.Blobs

/-- C111. Large blobs follow the machine of the specification: through every history without a reset, with any commands
in between, any fragments, good or bad authentications and power cuts at any point, every read and every fragment gets
exactly the answer that the machine gives, or power is lost; then the array is what it was before that command, and no
upload is left. -/
theorem C111_machine (x : Ext) (s : St) (a : Bytes) (n : Nat) (ha : s.flash.lb = some a) (hl : s.ram.lb = ⟨0, n⟩) (ops : List (Op × Env))
    (hr : ∀ o ∈ ops, o.1.resets = false ∧ noFail o.2 ∧ Sane o.1) : Obeys x s ⟨a, .going [] n⟩ ops := by
  have main : ∀ (ops : List (Op × Env)) (s : St) (m : Mach), Mirrors s.flash s.ram.lb m →
      (∀ o ∈ ops, o.1.resets = false ∧ noFail o.2 ∧ Sane o.1) → Obeys x s m ops := by
    intro ops
    induction ops with
    | nil => intros; trivial
    | cons o ops ih =>
      intro s m hm hr
      obtain ⟨op, env⟩ := o
      obtain ⟨h1, h2, h3⟩ := hr (op, env) List.mem_cons_self
      have hr' := fun o ho => hr o (List.mem_cons_of_mem _ ho)
      rcases blob_next (x := x) hm op env h1 h2 h3 with ⟨g1, g2⟩ | ⟨g1, g2⟩
      · exact Or.inl ⟨g1, ih _ _ g2 hr'⟩
      · exact Or.inr ⟨g1, ih _ _ g2 hr'⟩
  exact main ops s _ ⟨ha, hl, fun h => absurd rfl h⟩ hr

/-- C111. One fragment changes nothing in the storage but the array and the upload. -/
theorem C111_only (x : Ext) (s : St) (m : Mach) (hm : Mirrors s.flash s.ram.lb m) (i : In) (q : LbReq) (hq : q.get = none)
    (hz : Sane (.cbor i (.lb (.ok q)))) (env : Env) (he : noFail env) :
    ∃ l t, (step x s (.cbor i (.lb (.ok q))) env).1.flash = { s.flash with lb := l, lbt := t } := by
  refine cbor_wp (s := s) (i := i) (q := .lb (.ok q)) (env := env) (A := cutsOnly) (P := fun p : St × Out => ∃ l t, p.1.flash = { s.flash with lb := l, lbt := t }) he
    (by
      show Cmd.wp _ (largeBlobs x i (.ok q)) _ _ _ _ _
      unfold largeBlobs
      simp only [hq]
      exact blob_write hm hz.1 (hz.2 hq)) ?_ ?_ ?_ ?_
  · rintro a f r ⟨_, _, h⟩
    exact ⟨_, _, h⟩
  · rintro c f r ⟨_, _, _, _, h⟩
    exact ⟨_, _, h⟩
  · rintro c f r ⟨_, _, _, _, h⟩
    exact ⟨_, _, h⟩
  · rintro f r ⟨_, h⟩
    exact ⟨_, _, h⟩

/-- C111. The requests that reach the command are those of the theorem, and arrays have at most the 4096 bytes that
getInfo announces. -/
theorem C111_parsed (v : Parse.Cbor) (q : LbReq) (h : Parse.parseLb v = .ok q) (i : In) :
    Sane (.cbor i (.lb (.ok q))) ∧ (q.get = none → q.offset = 0 → q.length ≤ 4096) := by
  have := Parse.sane_parseLb v
  rw [h] at this
  exact ⟨⟨this.1, fun h1 h2 => (this.2 h1 h2).1⟩, fun h1 h2 => (this.2 h1 h2).2⟩

/-- C111. In the machine the array only becomes what was uploaded whole, with its hash, and every byte of an upload was
sent with an authentication that was accepted: a fragment that is refused adds nothing. -/
theorem C111_array (x : Ext) (m : Mach) (g : Option Byte) (q : LbReq) (h : (m.write x g q).1.array ≠ m.array) :
    g = none ∧ (m.write x g q).2 = .resp .empty ∧ ∃ b n, (q.offset = 0 ∧ b = [] ∧ n = q.length ∨ q.offset = b.length ∧ m.up = .going b n) ∧
      (m.write x g q).1.array = b ++ q.set ∧ (b ++ q.set).length = n ∧
      (b ++ q.set).drop (n - 16) = (x.sha ((b ++ q.set).take (n - 16))).take 16 := by
  revert h
  unfold Mach.write
  dsimp only
  by_cases hp : q.offset ≠ (if q.offset = 0 then Upload.going [] q.length else m.up).pos
  · rw [if_pos hp]
    intro h
    exact absurd rfl h
  · rw [if_neg hp]
    have hp : q.offset = (if q.offset = 0 then Upload.going [] q.length else m.up).pos := by simpa using hp
    cases g with
    | some c => intro h; exact absurd rfl h
    | none =>
      generalize hu : (if q.offset = 0 then Upload.going [] q.length else m.up) = u at hp
      cases u with
      | over k => intro h; exact absurd rfl h
      | going b n =>
        dsimp only
        split
        · intro h; exact absurd rfl h
        · split
          · intro h; exact absurd rfl h
          · split
            · rename_i h1 h2 h3
              intro _
              refine ⟨rfl, rfl, b, n, ?_, rfl, by omega, h3⟩
              by_cases h0 : q.offset = 0
              · rw [if_pos h0] at hu
                cases hu
                exact Or.inl ⟨h0, rfl, rfl⟩
              · rw [if_neg h0] at hu
                exact Or.inr ⟨hp, hu⟩
            · intro h; exact absurd rfl h

/-- C111. An array that is sent whole, in any fragments, is stored: the machine accepts every fragment. -/
theorem C111_upload (x : Ext) (a b : Bytes) (n : Nat) (l : List Bytes) (hne : ∀ c ∈ l, c ≠ []) (hl : l ≠ []) (hn : (b ++ l.flatten).length = n)
    (hb : b ≠ [])
    (hs : (b ++ l.flatten).drop (n - 16) = (x.sha ((b ++ l.flatten).take (n - 16))).take 16) :
    ∃ m' : Mach, m'.array = b ++ l.flatten ∧
      l.foldl (fun (p : Mach × Bytes) c => ((p.1.write x none ⟨none, c, p.2.length, 0, none, none⟩).1, p.2 ++ c)) (⟨a, .going b n⟩, b) = (m', b ++ l.flatten) := by
  induction l generalizing b with
  | nil => exact absurd rfl hl
  | cons c l ih =>
    have hc := hne c List.mem_cons_self
    have hbl : b.length ≠ 0 := by simpa using hb
    have hw : (Mach.write x ⟨a, .going b n⟩ none ⟨none, c, b.length, 0, none, none⟩).1 =
        if l = [] then ⟨b ++ c, .over n⟩ else ⟨a, .going (b ++ c) n⟩ := by
      unfold Mach.write
      dsimp only
      rw [if_neg hbl, if_neg (by show ¬ (b.length ≠ b.length); simp)]
      dsimp only
      rw [List.flatten_cons, ← List.append_assoc, List.length_append] at hn
      rw [if_neg (by omega)]
      by_cases h : l = []
      · subst h
        rw [if_pos rfl, if_neg (by simp at hn; simp; omega), if_pos (by simpa using hs)]
      · obtain ⟨d, l', rfl⟩ := List.exists_cons_of_ne_nil h
        have hd : d ≠ [] := hne d (by simp)
        have : 0 < d.length := List.length_pos_iff.mpr hd
        rw [if_neg h, if_pos (by
          rw [List.flatten_cons, List.length_append (as := d)] at hn
          rw [List.length_append] at hn ⊢
          omega)]
    rw [List.foldl_cons, hw]
    by_cases h : l = []
    · subst h
      rw [if_pos rfl]
      exact ⟨⟨b ++ c, .over n⟩, by simp, by simp⟩
    · rw [if_neg h]
      have := ih (b ++ c) (fun d hd => hne d (List.mem_cons_of_mem _ hd)) h (by simpa using hn) (by simp [hb]) (by simpa using hs)
      simpa using this

/-! ### The hypotheses can be met -/

open Verif.Ctap.Toy in
/-- An upload with another command in between, a fragment in the wrong place, and a read. -/
def blobs1 : List (Op × Env) := hist [(1, writeBlob 0 part1), (2, .info), (2, writeBlob 5 part1), (3, writeBlob 7 part2),
  (4, .lb (.ok ⟨some 5, [], 3, 0, none, none⟩))]

open Verif.Ctap.Toy in
example : ∀ o ∈ blobs1, o.1.resets = false ∧ noFail o.2 ∧ Sane o.1 := by
  intro o ho
  simp only [blobs1, hist, List.map_cons, List.map_nil, List.mem_cons, List.not_mem_nil, or_false] at ho
  rcases ho with rfl | rfl | rfl | rfl | rfl
  all_goals refine ⟨rfl, fun n => nofun, ?_⟩
  · exact ⟨by decide, fun _ _ => by decide⟩
  · trivial
  · exact ⟨by decide, fun _ h => absurd h (by decide)⟩
  · exact ⟨by decide, fun _ h => absurd h (by decide)⟩
  · exact ⟨by decide, fun h => by cases h⟩

open Verif.Ctap.Toy in
example : produced.flash.lb = some emptyLb ∧ produced.ram.lb = ⟨0, 0⟩ ∧
    (run ext produced blobs1).2 = [.resp .empty, .resp (.info false), .err 0x04, .resp .empty, .resp (.config [4, 1, 2, 3, 4])] := by
  refine ⟨by decide +kernel, by decide +kernel, by decide +kernel⟩

open Verif.Ctap.Toy in
/-- With a PIN, fragments need the token; and one at offset 0 that is refused ends the upload that was there. -/
example : (run ext produced (hist [(1, writeBlob 0 part1), (2, Toy.setPin pin1), (3, writeBlob 7 part2), (4, writeBlob 0 part1), (5, writeBlob 7 part2)])).2.map
      (fun o => match o with
        | .err c => c
        | _ => 0) = [0, 0, 0x36, 0x36, 0x04] := by
  decide +kernel

end Verif.Props
