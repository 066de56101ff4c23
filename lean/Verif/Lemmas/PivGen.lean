import Verif.Lemmas.PivKey
import Verif.Base.Moves
import Verif.Props.Key
/-
How keys get into the slots, and that they stay there.
-/
set_option linter.unusedSimpArgs false
namespace Verif.Piv
open Cmd Verif.Spec.Piv Verif.KeyFile Verif.Spec.Key
open Verif.Key (KeyMat)

variable {A : Fault → Prop} {x : Ext} {i : In} {f : Flash} {r : Ram}

theorem names_of {a : Alg} {id : Byte} {t : KTy} (h : keyType a id = t) (h1 : t ≠ .none) (h2 : t ≠ .tdea) :
    Names a id t := by
  subst h
  revert h1 h2
  unfold keyType Names
  by_cases e1 : id = 0x11
  · simp [e1]
  by_cases e2 : id = 0x14
  · simp [e2]
  by_cases e3 : id = 0x07
  · simp [e3]
  by_cases e4 : id = 0
  · simp [e4]
  by_cases e5 : id = 3
  · simp [e5]
  by_cases e0 : a.enabled = 0
  · simp [e0, e1, e2, e3, e4, e5]
  by_cases f1 : id = a.ed25519
  · simp_all
  by_cases f2 : id = a.rsa3072
  · simp_all
  by_cases f3 : id = a.rsa4096
  · simp_all
  by_cases f4 : id = a.x25519
  · simp_all
  by_cases f5 : id = a.secp256k1
  · simp_all
  by_cases f6 : id = a.sm2
  · simp_all
  · simp_all

theorem writeKey_val {sl : Slot} {k : KeyMat} {m : Meta} : wp A (writeKey sl k m)
    (fun _ f' r' => f' = f.setKey sl (some ⟨k, some m⟩) ∧ r' = r) (fun e _ _ => e = ioErr ∧ A .fail)
    (fun _ _ => A .cut) f r := by
  unfold writeKey
  apply wp_bind
  apply wp_wrOr
  · intro f1 h1
    cases h1
    apply wp_wrOr
    · intro f2 h2
      simp [putInfo, putMat, Flash.setKey] at h2
      refine ⟨?_, rfl⟩
      rw [← h2]
      simp only [Flash.setKey, Flash.mk.injEq, true_and, and_true]
      funext s
      by_cases e : s = sl <;> simp [e]
    · intro h
      simp [putInfo, putMat, Flash.setKey] at h
    · exact fun h => ⟨rfl, h⟩
    · exact fun h => h
  · intro h; cases h
  · exact fun h => ⟨rfl, h⟩
  · exact fun h => h

theorem encodePub_some {c : Crypto} {t : KTy} {k : KeyMat} (h : t.isEcc = true ∨ t.isRsa = true) :
    ∃ p, encodePub c t k = some p := by
  cases t <;> first | exact ⟨_, rfl⟩ | (rcases h with h | h <;> cases h)

theorem readKey_full {sl : Slot} : wp A (readKey sl)
    (fun a f' r' => f.keys sl = some ⟨a.1, some a.2⟩ ∧ f' = f ∧ r' = r)
    (fun e f' r' => e = ioErr ∧ f' = f ∧ r' = r ∧ ∀ k m, f.keys sl = some ⟨k, some m⟩ → A .fail)
    (fun f' r' => A .cut ∧ f' = f ∧ r' = r) f r := by
  unfold readKey
  apply wp_bind
  apply wp_rdOr
  · intro m hm
    obtain ⟨kf, hk, hi⟩ := Option.bind_eq_some_iff.mp hm
    obtain ⟨k, mi⟩ := kf
    simp only at hi
    subst hi
    apply wp_bind
    apply wp_rdOr
    · intro a ha
      rw [hk] at ha
      cases ha
      exact wp_pure ⟨hk, rfl, rfl⟩
    · intro h; rw [hk] at h; cases h
    · exact fun h => ⟨rfl, rfl, rfl, fun _ _ _ => h⟩
    · exact fun h => ⟨h, rfl, rfl⟩
  · intro h
    refine ⟨rfl, rfl, rfl, fun k m e => ?_⟩
    simp [e] at h
  · exact fun h => ⟨rfl, rfl, rfl, fun _ _ _ => h⟩
  · exact fun h => ⟨h, rfl, rfl⟩

/-- The key after GENERATE. -/
def genKey (k : KeyMat) (m : Meta) (ps : List HostPolicy) : KeyMat :=
  { k with pinPolicy := pinAfter m.pin ps, touchPolicy := touchAfter m.touch ps }

/-- Its metadata. -/
def newMeta (m : Meta) (t : KTy) (o : Byte) (ps : List HostPolicy) : Meta :=
  { m with type := t, origin := o, pin := pinAfter m.pin ps, touch := touchAfter m.touch ps }

/-- GENERATE: either the key is there and its public key is the answer, or the command failed; it does not fail if the
host has administrative rights and key generation and storage work. -/
theorem generate_key {sl : Slot} {alg : Byte} {ps : List HostPolicy} (hg : IsGenerate i sl alg ps) :
    wp A (generate x i)
      (fun a f' r' => ∃ k m t key0 p, f.keys sl = some ⟨k, some m⟩ ∧ keyType r.alg alg = t ∧ t ≠ .none ∧
        (t.isEcc = true ∨ t.isRsa = true) ∧ i.gen t = some key0 ∧ encodePub x.cr t (genKey key0 m ps) = some p ∧
        f' = f.setKey sl (some ⟨genKey key0 m ps, some (newMeta m t 1 ps)⟩) ∧ r' = r ∧
        a = .resp ([0x7F, 0x49] ++ p) 0x9000)
      (fun a _ _ => Bad (.done a) ∧ (∀ k m key0, r.admin = true → f.keys sl = some ⟨k, some m⟩ →
        ((keyType r.alg alg).isEcc = true ∨ (keyType r.alg alg).isRsa = true) → i.gen (keyType r.alg alg) = some key0 → A .fail))
      (fun _ _ => A .cut) f r := by
  obtain ⟨h1, h2, h3, h4, h5, n, h6⟩ := hg
  have hd : i.c.data.drop 5 = ps.flatMap HostPolicy.enc := by rw [h6]; rfl
  have r0 : rd i.c.data 0 = .ok 0xAC := by rw [h6]; rfl
  have r2 : rd i.c.data 2 = .ok 0x80 := by rw [h6]; rfl
  have r3 : rd i.c.data 3 = .ok 1 := by rw [h6]; rfl
  have r4 : rd i.c.data 4 = .ok alg := by rw [h6]; rfl
  have hlc : ¬ i.c.lc < 5 := by simp [Apdu.Capdu.lc, h6]
  unfold generate needAdmin
  apply wp_bind; apply wp_bind; apply wp_get
  apply wp_ite <;> intro ha
  · refine wp_throw ⟨bad_sw (by decide), fun _ _ _ h => ?_⟩
    rw [h] at ha; cases ha
  apply wp_pure
  apply wp_ite <;> intro h
  · exact absurd h hlc
  apply wp_bind
  apply wp_mem
  rotate_left
  · intro u hu; rw [r0] at hu; cases hu
  intro d0 e0; rw [r0] at e0; cases e0
  apply wp_bind
  apply wp_mem
  rotate_left
  · intro u hu; rw [r2] at hu; cases hu
  intro d2 e2; rw [r2] at e2; cases e2
  apply wp_bind
  apply wp_mem
  rotate_left
  · intro u hu; rw [r3] at hu; cases hu
  intro d3 e3; rw [r3] at e3; cases e3
  apply wp_ite <;> intro h
  · rw [h3] at h; exact absurd h (by decide)
  rw [h4, slotOf_slot]
  apply wp_bind
  refine wp_mono readKey_full ?_ ?_ ?_
  rotate_left
  · rintro e f' r' ⟨rfl, rfl, rfl, hA⟩
    exact ⟨bad_io, fun k m _ _ h _ _ => hA k m h⟩
  · rintro f' r' ⟨hA, _⟩; exact hA
  rintro ⟨k, m⟩ f' r' ⟨hk, rfl, rfl⟩
  apply wp_bind
  apply wp_mem
  rotate_left
  · intro u hu; rw [r4] at hu; cases hu
  intro d4 e4; rw [r4] at e4; cases e4
  apply wp_bind; apply wp_get
  apply wp_ite <;> intro ht
  · have ht : keyType r'.alg alg = .none := by simpa using ht
    exact wp_throw ⟨bad_sw (by decide), fun _ _ _ _ _ h => by rw [ht] at h; rcases h with h | h <;> cases h⟩
  apply wp_ite <;> intro ht'
  · refine wp_throw ⟨bad_io, fun _ _ _ _ _ h => ?_⟩
    rcases h with h | h <;> simp [h] at ht'
  have ht1 : keyType r'.alg alg ≠ .none := by simpa using ht
  have ht2 : (keyType r'.alg alg).isEcc = true ∨ (keyType r'.alg alg).isRsa = true := by
    cases h : (keyType r'.alg alg).isEcc <;> cases h' : (keyType r'.alg alg).isRsa <;> simp [h, h'] at ht' ⊢
  cases hgen : i.gen (keyType r'.alg alg) with
  | none => exact wp_throw ⟨bad_io, fun _ _ _ _ _ _ h => by cases h⟩
  | some key0 =>
    have hp := Key.policies_enc (withPol key0 m) ps h5
    apply wp_bind
    apply wp_mem
    rotate_left
    · intro u hu; rw [hd, hp] at hu; cases hu
    intro e he
    rw [hd, hp] at he
    cases he
    apply wp_bind
    refine wp_mono writeKey_val ?_ ?_ ?_
    · rintro _ f'' r'' ⟨rfl, rfl⟩
      obtain ⟨p, hpub⟩ := encodePub_some (c := x.cr) (k := genKey key0 m ps) ht2
      have e : encodePub x.cr (keyType r''.alg alg) { withPol key0 m with
        pinPolicy := pinAfter (withPol key0 m).pinPolicy ps,
        touchPolicy := touchAfter (withPol key0 m).touchPolicy ps } = some p := hpub
      rw [e]
      exact wp_pure ⟨k, m, _, key0, p, hk, rfl, ht1, ht2, hgen, hpub, rfl, rfl, rfl⟩
    · rintro e f'' r'' ⟨rfl, hA⟩
      exact ⟨bad_io, fun _ _ _ _ _ _ _ => hA⟩
    · exact fun _ _ h => h

/-- IMPORT of data the parser takes. -/
theorem import_key {sl : Slot} {alg : Byte} {d : Bytes} (hi : IsImport i sl alg d) {P : KeyMat → Meta → KeyMat → Prop}
    (ht : (keyType r.alg alg).isEcc = true ∨ (keyType r.alg alg).isRsa = true)
    (hp : ∀ k m, ∃ key, (Key.parsePiv (x.cr.imp (keyType r.alg alg)) (x.cr.kt (keyType r.alg alg)) (withPol k m) d).run =
      .ok (.ok key) ∧ P k m key) :
    wp A (importKey x i.c)
      (fun a f' r' => ∃ k m key, f.keys sl = some ⟨k, some m⟩ ∧ P k m key ∧
        f' = f.setKey sl (some ⟨key, some ⟨keyType r.alg alg, 2, m.usage, key.pinPolicy, key.touchPolicy⟩⟩) ∧ r' = r ∧ a = .resp [] 0x9000)
      (fun a _ _ => Bad (.done a) ∧ (∀ k m, r.admin = true → f.keys sl = some ⟨k, some m⟩ → A .fail))
      (fun _ _ => A .cut) f r := by
  obtain ⟨h1, h2, h3, h4, h5⟩ := hi
  unfold importKey needAdmin
  apply wp_bind; apply wp_bind; apply wp_get
  apply wp_ite <;> intro ha
  · refine wp_throw ⟨bad_sw (by decide), fun _ _ h => ?_⟩
    rw [h] at ha; cases ha
  apply wp_pure
  rw [h4, slotOf_slot]
  apply wp_bind
  refine wp_mono readKey_full ?_ ?_ ?_
  rotate_left
  · rintro e f' r' ⟨rfl, rfl, rfl, hA⟩
    exact ⟨bad_io, fun k m _ h => hA k m h⟩
  · rintro f' r' ⟨hA, _⟩; exact hA
  rintro ⟨k, m⟩ f' r' ⟨hk, rfl, rfl⟩
  obtain ⟨key, hkey, hP⟩ := hp k m
  apply wp_bind; apply wp_get
  rw [h3]
  apply wp_ite <;> intro h
  · have h : keyType r'.alg alg = .none := by simpa using h
    rw [h] at ht; rcases ht with h | h <;> cases h
  apply wp_ite <;> intro h
  · rcases ht with h' | h' <;> simp [h'] at h
  rw [h5]
  apply wp_bind
  apply wp_mem
  rotate_left
  · intro u hu; rw [hkey] at hu; cases hu
  intro e he
  rw [hkey] at he
  cases he
  apply wp_bind
  refine wp_mono writeKey_val ?_ ?_ ?_
  · rintro _ f'' r'' ⟨rfl, rfl⟩
    exact wp_pure ⟨k, m, key, hk, hP, rfl, rfl, rfl⟩
  · rintro e f'' r'' ⟨rfl, hA⟩
    exact ⟨bad_io, fun _ _ _ _ => hA⟩
  · exact fun _ _ h => h

/-- GET METADATA for a slot. -/
theorem meta_key {sl : Slot} (hi : IsMeta i (slotId sl)) :
    wp A (getMetadata x i.c)
      (fun a f' r' => f' = f ∧ r' = r ∧ ∃ k m p, HasKey f sl k m ∧ encodePub x.cr m.type k = some p ∧
        a = .resp ([1, 1, algByte r.alg m.type, 2, 2, m.pin, m.touch, 3, 1, m.origin, 4] ++ p) 0x9000)
      (fun a _ _ => Bad (.done a) ∧ (∀ k m, HasKey f sl k m → (m.type.isEcc = true ∨ m.type.isRsa = true) → A .fail))
      (fun _ _ => A .cut) f r := by
  obtain ⟨h1, h2, h3, h4, h5⟩ := hi
  unfold getMetadata
  apply wp_ite <;> intro h
  · rw [h3] at h; exact absurd h (by decide)
  apply wp_ite <;> intro h
  · simp [Apdu.Capdu.lc, h5] at h
  rw [h4]
  apply wp_ite <;> intro h
  · cases sl <;> exact absurd h (by decide)
  apply wp_ite <;> intro h
  · cases sl <;> exact absurd h (by decide)
  rw [slotOf_slot]
  apply wp_bind
  refine wp_mono readKey_full ?_ ?_ ?_
  rotate_left
  · rintro e f' r' ⟨rfl, rfl, rfl, hA⟩
    exact ⟨bad_io, fun k m h _ => hA k m h.1⟩
  · rintro f' r' ⟨hA, _⟩; exact hA
  rintro ⟨k, m⟩ f' r' ⟨hk, rfl, rfl⟩
  apply wp_ite <;> intro h
  · refine wp_throw ⟨bad_sw (by decide), fun k' m' hh _ => ?_⟩
    have := hh.1
    rw [hk] at this
    cases this
    exact absurd (by simpa using h) hh.2
  apply wp_bind; apply wp_get
  cases he : encodePub x.cr m.type k with
  | none =>
    refine wp_throw ⟨bad_io, fun k' m' hh ht => ?_⟩
    have := hh.1
    rw [hk] at this
    cases this
    obtain ⟨p, hp⟩ := encodePub_some (c := x.cr) (k := k) ht
    rw [he] at hp; cases hp
  | some p =>
    refine wp_pure ⟨rfl, rfl, k, m, p, ⟨hk, by simpa using h⟩, he, ?_⟩
    have : algId r'.alg m.type = algByte r'.alg m.type := by cases m.type <;> rfl
    rw [← this]

/-! ### Keys stay -/

/-- The key in the slot is the same, and a configuration that exists stays. -/
def KeyKept (sl : Slot) (f f' : Flash) : Prop := f'.keys sl = f.keys sl ∧ (f.alg.isSome = true → f'.alg.isSome = true)

instance (sl : Slot) : PreOrd (KeyKept sl) where
  refl _ := ⟨rfl, id⟩
  trans h h' := ⟨h'.1.trans h.1, fun e => h'.2 (h.2 e)⟩

theorem onPin_kept {α : Type} {sl : Slot} {w : Which} {m : Pin.M α} : Moves (KeyKept sl) (onPin w m) :=
  Moves.zoom fun f p => by cases w <;> exact ⟨rfl, id⟩

theorem writeKey_kept {sl s : Slot} (h : s ≠ sl) (k : KeyMat) (m : Meta) : Moves (KeyKept sl) (writeKey s k m) := by
  unfold writeKey
  refine Moves.bind (Moves.wrOr ?_) fun _ => Moves.wrOr ?_
  · intro f f' e
    cases e
    exact ⟨by simp [Flash.setKey, Ne.symm h], id⟩
  · intro f f' e
    obtain ⟨v, _, rfl⟩ := Option.map_eq_some_iff.mp e
    exact ⟨by simp [Flash.setKey, Ne.symm h], id⟩

theorem checkPin_kept {sl : Slot} (w : Which) : Moves (KeyKept sl) (checkPin x i w) := by
  unfold checkPin
  mvs (with_reducible exact onPin_kept)

theorem vtu_kept {sl : Slot} (w w' : Which) : Moves (KeyKept sl) (verifyThenUpdate x i w w') := by
  unfold verifyThenUpdate
  mvs (first | with_reducible exact onPin_kept | with_reducible exact checkPin_kept _)

theorem readKey_kept {sl s : Slot} : Moves (KeyKept sl) (readKey s) := by
  unfold readKey
  mvs fail

theorem readRef_kept {sl : Slot} {k : Ref} : Moves (KeyKept sl) (readRef k) := by
  unfold readRef
  mvs (with_reducible exact readKey_kept)

theorem touch_kept {sl : Slot} {c : Bool} : Moves (KeyKept sl) (touch i c) := by
  unfold touch
  mvs fail

theorem secCheck_kept {sl : Slot} {p : Byte} : Moves (KeyKept sl) (secCheck p) := by
  unfold secCheck
  mvs fail

theorem tdesOr_kept {sl : Slot} {b : Bytes} {e : Reply} : Moves (KeyKept sl) (tdesOr x b e) := by
  unfold tdesOr
  mvs fail

theorem needAdmin_kept {sl : Slot} : Moves (KeyKept sl) needAdmin := by
  unfold needAdmin
  mvs fail

theorem caseSign_kept {sl : Slot} {k : Ref} {m : Meta} {p l : Nat} : Moves (KeyKept sl) (caseSign x i k m p l) := by
  unfold caseSign
  mvs (first
    | with_reducible exact touch_kept
    | with_reducible exact secCheck_kept
    | with_reducible exact readRef_kept
    | with_reducible exact tdesOr_kept)

theorem caseExtReq_kept {sl : Slot} {k : Ref} : Moves (KeyKept sl) (caseExtReq x i k) := by
  unfold caseExtReq
  mvs (first
    | with_reducible exact touch_kept
    | with_reducible exact secCheck_kept
    | with_reducible exact readRef_kept
    | with_reducible exact tdesOr_kept)

theorem caseExtResp_kept {sl : Slot} {k : Ref} {p l : Nat} : Moves (KeyKept sl) (caseExtResp x i k p l) := by
  unfold caseExtResp
  mvs (first
    | with_reducible exact touch_kept
    | with_reducible exact secCheck_kept
    | with_reducible exact readRef_kept
    | with_reducible exact tdesOr_kept)

theorem caseMutReq_kept {sl : Slot} {k : Ref} : Moves (KeyKept sl) (caseMutReq x i k) := by
  unfold caseMutReq
  mvs (first
    | with_reducible exact touch_kept
    | with_reducible exact secCheck_kept
    | with_reducible exact readRef_kept
    | with_reducible exact tdesOr_kept)

theorem caseMutResp_kept {sl : Slot} {k : Ref} {p l p' l' : Nat} : Moves (KeyKept sl) (caseMutResp x i k p l p' l') := by
  unfold caseMutResp
  mvs (first
    | with_reducible exact touch_kept
    | with_reducible exact secCheck_kept
    | with_reducible exact readRef_kept
    | with_reducible exact tdesOr_kept)

theorem caseEcdh_kept {sl : Slot} {k : Ref} {m : Meta} {p l : Nat} : Moves (KeyKept sl) (caseEcdh x i k m p l) := by
  unfold caseEcdh
  mvs (first
    | with_reducible exact touch_kept
    | with_reducible exact secCheck_kept
    | with_reducible exact readRef_kept
    | with_reducible exact tdesOr_kept)

theorem genAuth_kept {sl : Slot} : Moves (KeyKept sl) (genAuth x i) := by
  unfold genAuth
  mvs (first
    | with_reducible exact touch_kept
    | with_reducible exact caseSign_kept
    | with_reducible exact caseExtReq_kept
    | with_reducible exact caseExtResp_kept
    | with_reducible exact caseMutReq_kept
    | with_reducible exact caseMutResp_kept
    | with_reducible exact caseEcdh_kept)

theorem getData_kept {sl : Slot} {c : Apdu.Capdu} : Moves (KeyKept sl) (getData c) := by
  unfold getData getLargeData
  mvs fail

theorem getMore_kept {sl : Slot} {c : Apdu.Capdu} : Moves (KeyKept sl) (getDataResponse c) := by
  unfold getDataResponse
  mvs fail

theorem verify_kept {sl : Slot} : Moves (KeyKept sl) (verify x i) := by
  unfold verify
  mvs (first | with_reducible exact onPin_kept | with_reducible exact checkPin_kept _)

theorem setDflt_kept {sl : Slot} {w : Which} {v : Byte} {f f' : Flash} (h : setDflt w v f = some f') : KeyKept sl f f' := by
  unfold setDflt at h
  cases w <;> simp only at h <;> split at h <;> cases h <;> exact ⟨rfl, id⟩

theorem changeRef_kept {sl : Slot} : Moves (KeyKept sl) (changeRef x i) := by
  unfold changeRef
  mvs (first | with_reducible exact vtu_kept _ _ | exact fun _ _ h => setDflt_kept h)

theorem resetRetry_kept {sl : Slot} : Moves (KeyKept sl) (resetRetry x i) := by
  unfold resetRetry
  mvs (with_reducible exact vtu_kept _ _)

theorem putData_kept {sl : Slot} {c : Apdu.Capdu} : Moves (KeyKept sl) (putData c) := by
  unfold putData
  mvs (first | with_reducible exact needAdmin_kept | exact fun _ _ h => by cases h; exact ⟨rfl, id⟩)

theorem slot_ne {sl s : Slot} {p : Byte} (h : p ≠ slotId sl) (h' : slotOf p = some s) : s ≠ sl := fun e =>
  h (e ▸ slotOf_some h')

theorem generate_kept {sl : Slot} (h : i.c.p2 ≠ slotId sl) : Moves (KeyKept sl) (generate x i) := by
  unfold generate
  mvs (first
    | with_reducible exact needAdmin_kept
    | with_reducible exact readKey_kept
    | exact writeKey_kept (slot_ne h (by assumption)) _ _)

theorem import_kept {sl : Slot} (h : i.c.p2 ≠ slotId sl) : Moves (KeyKept sl) (importKey x i.c) := by
  unfold importKey
  mvs (first
    | with_reducible exact needAdmin_kept
    | with_reducible exact readKey_kept
    | exact writeKey_kept (slot_ne h (by assumption)) _ _)

theorem setMgmt_kept {sl : Slot} {c : Apdu.Capdu} : Moves (KeyKept sl) (setMgmt c) := by
  unfold setMgmt
  mvs (first
    | with_reducible exact needAdmin_kept
    | (intro f f' h; first
        | (cases h; exact ⟨rfl, id⟩)
        | (obtain ⟨m, _, rfl⟩ := Option.map_eq_some_iff.mp h; exact ⟨rfl, id⟩)))

theorem meta_kept {sl : Slot} {c : Apdu.Capdu} : Moves (KeyKept sl) (getMetadata x c) := by
  unfold getMetadata defaultRetries
  mvs (first | with_reducible exact onPin_kept | with_reducible exact readKey_kept)

theorem algExt_kept {sl : Slot} {c : Apdu.Capdu} : Moves (KeyKept sl) (algExt c) := by
  unfold algExt
  mvs (first | with_reducible exact needAdmin_kept | exact fun _ _ h => by cases h; exact ⟨rfl, fun _ => rfl⟩)

theorem dispatch_kept {sl : Slot} (h : ¬ Rekeys sl (.apdu i)) : Moves (KeyKept sl) (dispatch x i) := by
  have h : ¬((i.c.ins = 0x47 ∨ i.c.ins = 0xFE) ∧ i.c.p2 = slotId sl ∨ i.c.ins = 0xFB) := h
  unfold dispatch
  refine Moves.ite (fun _ => ?_) fun _ => ?_
  · unfold select; mvs fail
  refine Moves.ite (fun _ => getData_kept) fun _ => ?_
  refine Moves.ite (fun _ => getMore_kept) fun _ => ?_
  refine Moves.ite (fun _ => verify_kept) fun _ => ?_
  refine Moves.ite (fun _ => changeRef_kept) fun _ => ?_
  refine Moves.ite (fun _ => resetRetry_kept) fun _ => ?_
  refine Moves.ite (fun _ => genAuth_kept) fun _ => ?_
  refine Moves.ite (fun _ => putData_kept) fun _ => ?_
  refine Moves.ite (fun e => generate_kept fun e' => h (.inl ⟨.inl (by simpa using e), e'⟩)) fun _ => ?_
  refine Moves.ite (fun _ => setMgmt_kept) fun _ => ?_
  refine Moves.ite (fun e => absurd (.inr (by simpa using e)) h) fun _ => ?_
  refine Moves.ite (fun e => import_kept fun e' => h (.inl ⟨.inr (by simpa using e), e'⟩)) fun _ => ?_
  refine Moves.ite (fun _ => ?_) fun _ => ?_
  · unfold getInfo; mvs fail
  refine Moves.ite (fun _ => ?_) fun _ => ?_
  · unfold getInfo; mvs fail
  refine Moves.ite (fun _ => meta_kept) fun _ => ?_
  refine Moves.ite (fun _ => algExt_kept) fun _ => ?_
  exact Moves.throw _

theorem process_kept {sl : Slot} (h : ¬ Rekeys sl (.apdu i)) : Moves (KeyKept sl) (process x i) := by
  unfold process
  mvs (exact dispatch_kept h)

theorem exec_flash (m : M Reply) (f : Flash) (r : Ram) (env : Env) : (exec m f r env).1.flash = (runCmd m f r env).1 := by
  unfold exec
  split <;> next e => rw [e]

/-- Only GENERATE, IMPORT and resets touch the key in a slot, whatever fails; and a boot, if it finds no configuration. -/
theorem step_kept {sl : Slot} {s : St} {op : Op} {env : Env} (h : ¬ Rekeys sl op) (hb : ∀ rnd, op ≠ .boot rnd) :
    KeyKept sl s.flash (step x s op env).1.flash := by
  obtain ⟨f, o⟩ := s
  cases op with
  | boot rnd => exact absurd rfl (hb rnd)
  | factory rnd => exact absurd trivial h
  | deselect => cases o <;> exact ⟨rfl, id⟩
  | apdu i =>
    cases o with
    | none => exact ⟨rfl, id⟩
    | some r =>
      show KeyKept sl f (exec (process x i) f r env).1.flash
      rw [exec_flash]
      exact (process_kept h).run f r env

/-- Switching on changes nothing in flash if the configuration is there and can be read. -/
theorem boot_kept {s : St} {rnd : Nat → Byte} {env : Env} (he : env.all cutsOnly) (ha : s.flash.alg.isSome = true) :
    (step x s (.boot rnd) env).1.flash = s.flash := by
  obtain ⟨f, o⟩ := s
  have e : step x ⟨f, o⟩ (.boot rnd) env = exec (installOp false rnd) f Ram.init env := by cases o <;> rfl
  rw [e]
  have hw : wp cutsOnly (installOp false rnd) (fun _ f' _ => f' = f) (fun _ f' _ => f' = f) (fun f' _ => f' = f) f
      Ram.init := by
    unfold installOp install
    apply wp_bind; apply wp_bind; apply wp_mod
    apply wp_ite <;> intro h
    · cases h
    apply wp_bind
    apply wp_rdF
    · intro _
      apply wp_ite <;> intro h
      · apply wp_bind
        apply wp_rdOr
        · intro a _; exact wp_mod (wp_pure rfl)
        · exact fun _ => rfl
        · exact fun _ => rfl
        · exact fun _ => rfl
      · exact absurd ha h
    · intro h; exact absurd rfl h
    · exact fun _ => rfl
  rcases exec_of_wp (P := fun _ f' _ => f' = f) hw he with ⟨f', r', e, h⟩ | ⟨f', r', a, e, h⟩
  · rw [e]; exact h
  · rw [e]; exact h

end Verif.Piv
