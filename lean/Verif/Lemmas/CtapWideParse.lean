import Verif.Lemmas.CtapWide
import Verif.Lemmas.CtapParse
/-
The sizes in requests that come out of the parsers.
-/
namespace Verif.Ctap.Parse

theorem length_truncRpId (d : Bytes) : (truncRpId d).length ≤ 32 := by
  unfold truncRpId
  split
  · assumption
  · dsimp only
    repeat' split
    all_goals simp only [List.length_append, List.length_take, List.length_drop, List.length_cons, List.length_nil]; omega

theorem cstr_le (b : Bytes) : (cstr b).length ≤ b.length := by
  unfold cstr
  exact List.Sublist.length_le (List.takeWhile_sublist _)

theorem cstr_zero (b : Bytes) : (0 : Byte) ∉ cstr b := by
  unfold cstr
  induction b with
  | nil => simp
  | cons a l ih =>
    rw [List.takeWhile_cons]
    split
    · rename_i h
      intro hm
      rcases List.mem_cons.1 hm with rfl | hm
      · simp at h
      · exact ih hm
    · simp

theorem wide_parseUser (v : Cbor) (u : User) (hu : UserOk u) : Safe (parseUser v u) UserOk := by
  unfold parseUser
  refine safe_bind (safe_entriesOf fun l _ => safe_eachText (fun k v s hs => ?_) l hu)
  refine safe_ite (fun _ => ?_) (fun _ => safe_ite (fun _ => ?_) (fun _ => safe_ite (fun _ => ?_) (fun _ => safe_ite (fun _ => ?_) (fun _ => safe_pure hs))))
  · refine safe_bind (safe_bytesOf fun b _ => safe_bind (safe_copyIn (fun _ => by split <;> omega) fun hb => safe_pure ?_))
    exact ⟨hb, hs.name, hs.disp, hs.name0, hs.disp0⟩
  · refine safe_bind (safe_textOf fun b _ => safe_bind (safe_copyIn (fun _ => by split <;> omega) fun hb => safe_bind (safe_poke (by omega) (safe_pure ?_))))
    exact ⟨hs.id, hs.name, Nat.le_trans (cstr_le _) hb, hs.name0, cstr_zero _⟩
  · refine safe_bind (safe_textOf fun b _ => safe_bind (safe_copyIn (fun _ => by split <;> omega) fun hb => safe_bind (safe_poke (by omega) (safe_pure ?_))))
    exact ⟨hs.id, Nat.le_trans (cstr_le _) hb, hs.disp, cstr_zero _, hs.disp0⟩
  · exact safe_bind (safe_textOf fun b _ => safe_pure hs)

variable {x : Ext}

theorem wide_parseRp (hx : ∀ b, (x.sha b).length = 32) (v : Cbor) (s : Bytes × Bytes) (hs : s.1.length = 32 ∧ s.2.length ≤ 32) :
    Safe (parseRp x v s) fun s => s.1.length = 32 ∧ s.2.length ≤ 32 := by
  unfold parseRp
  refine safe_bind (safe_entriesOf fun l _ => safe_eachText (fun k v s hs => ?_) l hs)
  refine safe_bind (safe_textOf fun t _ => safe_ite (fun _ => ?_) (fun _ => safe_pure hs))
  exact safe_bind (safe_copyIn (fun _ => by split <;> omega) fun hb => safe_bind (safe_poke (by omega) (safe_pure ⟨hx _, length_truncRpId _⟩)))

/-- What is asked of a makeCredential request. -/
def McOk (q : McReq) : Prop := q.rpHash.length = 32 ∧ q.rpId.length ≤ 32 ∧ UserOk q.user

theorem wide_parseMcExt (v : Cbor) (q : McReq) (hq : McOk q) : Safe (parseMcExt v q) McOk := by
  unfold parseMcExt
  refine safe_bind (safe_entriesOf fun l _ => safe_eachText (fun k v s hs => ?_) l hq)
  repeat' first
    | with_reducible exact safe_pure hs
    | safe1
  all_goals exact hs

theorem wide_mcEntry (hx : ∀ b, (x.sha b).length = 32) (sm2 : Sm2) (k : Int) (v : Cbor) (s : McS) (hs : McOk s.q) :
    Safe (mcEntry x sm2 k v s) fun s => McOk s.q := by
  unfold mcEntry
  refine safe_ite (fun _ => ?_) (fun _ => safe_ite (fun _ => ?_) (fun _ => safe_ite (fun _ => ?_) (fun _ => safe_ite (fun _ => ?_) (fun _ => ?_))))
  · refine safe_bind (safe_bytesOf fun b _ => safe_bind (safe_copyIn (fun _ => by split <;> omega) fun hb => safe_bind (safe_refuseIf fun _ => ?_)))
    exact safe_pure (Q := fun s : McS => McOk s.q) hs
  · exact safe_bind ((wide_parseRp hx _ _ ⟨hs.1, hs.2.1⟩).mono fun _ h => safe_pure (Q := fun s : McS => McOk s.q) ⟨h.1, h.2, hs.2.2⟩)
  · exact safe_bind ((wide_parseUser _ _ hs.2.2).mono fun _ h => safe_pure (Q := fun s : McS => McOk s.q) ⟨hs.1, hs.2.1, h⟩)
  · exact safe_bind ((safe_parseParams _ _).mono fun _ _ => safe_pure (Q := fun s : McS => McOk s.q) hs)
  refine safe_ite (fun _ => ?_) (fun _ => safe_ite (fun _ => ?_) (fun _ => safe_ite (fun _ => ?_) (fun _ => safe_ite (fun _ => ?_) (fun _ => safe_ite (fun _ => ?_) (fun _ => safe_pure hs)))))
  · exact safe_bind ((safe_parseList _).mono fun _ _ => safe_pure (Q := fun s : McS => McOk s.q) hs)
  · exact safe_bind ((wide_parseMcExt _ _ hs).mono fun _ h => safe_pure (Q := fun s : McS => McOk s.q) h)
  · exact safe_bind ((safe_parseOptions _ _).mono fun _ _ => safe_pure (Q := fun s : McS => McOk s.q) hs)
  · exact safe_bind ((safe_authOf _ _).mono fun _ _ => safe_pure (Q := fun s : McS => McOk s.q) hs)
  · exact safe_bind ((safe_protoOf _).mono fun _ _ => safe_pure (Q := fun s : McS => McOk s.q) hs)

theorem userOk_empty : UserOk ⟨[], [], []⟩ := ⟨Nat.zero_le _, Nat.zero_le _, Nat.zero_le _, nofun, nofun⟩

theorem wide_parseMc (hx : ∀ b, (x.sha b).length = 32) (sm2 : Sm2) (v : Cbor) : Safe (parseMc x sm2 v) McOk := by
  unfold parseMc
  refine safe_bind (safe_entriesOf fun l _ => safe_bind ((safe_eachInt (I := fun s => McOk s.q) (fun k v s hs => wide_mcEntry hx sm2 k v s hs) l
    ⟨rfl, Nat.zero_le _, userOk_empty⟩).mono fun s hs => ?_))
  exact safe_bind (safe_refuseIf fun _ => safe_pure hs)

theorem wide_parseGaExt (v : Cbor) (s : GaP) (hs : s.q.rpHash.length = 32) : Safe (parseGaExt v s) fun s => s.q.rpHash.length = 32 := by
  unfold parseGaExt
  refine safe_bind (safe_entriesOf fun l _ => safe_eachText (fun k v s hs => ?_) l hs)
  repeat' first
    | (with_reducible refine (safe_parseHs _ _).mono ?_; exact fun _ _ => safe_pure hs)
    | with_reducible exact safe_pure hs
    | safe1
  all_goals exact hs

theorem wide_gaEntry (hx : ∀ b, (x.sha b).length = 32) (k : Int) (v : Cbor) (s : GaP) (hs : s.q.rpHash.length = 32) :
    Safe (gaEntry x k v s) fun s => s.q.rpHash.length = 32 := by
  unfold gaEntry
  refine safe_ite (fun _ => ?_) (fun _ => ?_)
  · exact safe_bind (safe_textOf fun t _ => safe_bind (safe_copyIn (fun _ => by split <;> omega) fun _ => safe_pure (hx _)))
  repeat' first
    | (with_reducible refine (safe_parseList _).mono ?_; exact fun _ _ => safe_pure hs)
    | with_reducible exact wide_parseGaExt _ _ hs
    | (with_reducible refine (safe_parseOptions _ _).mono ?_; exact fun _ _ => safe_pure hs)
    | (with_reducible refine (safe_authOf _ _).mono ?_; exact fun _ _ => safe_pure hs)
    | (with_reducible refine (safe_protoOf _).mono ?_; exact fun _ _ => safe_pure hs)
    | safe1
  all_goals exact hs

theorem wide_parseGa (hx : ∀ b, (x.sha b).length = 32) (v : Cbor) : Safe (parseGa x v) fun q => q.rpHash.length = 32 := by
  unfold parseGa
  refine safe_bind (safe_entriesOf fun l _ => safe_bind ((safe_eachInt (I := fun s : GaP => s.q.rpHash.length = 32)
    (fun k v s hs => wide_gaEntry hx k v s hs) l rfl).mono fun s hs => ?_))
  exact safe_bind (safe_refuseIf fun _ => safe_pure hs)

theorem wide_cmParam (k : Int) (v : Cbor) (s : CmS) (hs : UserOk s.q.user) : Safe (cmParam k v s) fun s => UserOk s.q.user := by
  have base := safe_cmParam k v s
  by_cases hk : k = 3
  · subst hk
    have := wide_parseUser v s.q.user hs
    unfold cmParam
    show Safe (match parseUser v s.q.user with
      | .ok u => pure { s with q := { s.q with user := u }, seenUser := true }
      | .error (.code _) => refuse Code.invalidCbor
      | .error e => .error e : P CmS) _
    revert this
    rcases parseUser v s.q.user with ⟨_ | _⟩ | a
    · intro _; exact safe_refuse
    · intro h; exact h.elim
    · intro h; exact safe_pure h
  · unfold cmParam
    refine safe_ite (fun _ => ?_) (fun _ => safe_ite (fun _ => ?_) (fun _ => safe_ite (fun h => absurd (by simpa using h) hk) (fun _ => safe_pure hs)))
    · refine safe_bind (safe_bytesOf fun b _ => safe_bind (safe_refuseIf fun h => safe_bind (safe_copyIn (fun _ => ?_) fun _ => safe_pure hs)))
      simp at h
      split <;> omega
    · have := safe_parseDescriptor v
      revert this
      rcases parseDescriptor v with ⟨_ | _⟩ | a
      · intro _; exact safe_refuse
      · intro h; exact h.elim
      · intro _; exact safe_bind (safe_copyIn (fun _ => by split <;> omega) fun _ => safe_pure hs)

theorem wide_cmEntry (enc : Cbor → Bytes) (k : Int) (v : Cbor) (s : CmS) (hs : UserOk s.q.user) : Safe (cmEntry enc k v s) fun s => UserOk s.q.user := by
  unfold cmEntry
  refine safe_ite (fun _ => ?_) (fun _ => safe_ite (fun _ => ?_) (fun _ => safe_ite (fun _ => ?_) (fun _ => safe_ite (fun _ => ?_) (fun _ => safe_pure hs))))
  · exact safe_bind (safe_intOf fun _ _ _ _ => safe_pure hs)
  · have : Safe (do let l ← entriesOf v; eachInt cmParam l s : P CmS) fun s => UserOk s.q.user :=
      safe_bind (safe_entriesOf fun l _ => safe_eachInt (fun k v s h => wide_cmParam k v s h) l hs)
    revert this
    rcases (do let l ← entriesOf v; eachInt cmParam l s : P CmS) with ⟨_ | _⟩ | a
    · intro _; exact safe_refuse
    · intro h; exact h.elim
    · intro h; exact safe_pure h
  · exact safe_bind ((safe_protoOf _).mono fun _ _ => safe_pure hs)
  · refine safe_bind (safe_bytesOf fun b _ => safe_bind (safe_refuseIf fun h => safe_bind (safe_copyIn (fun _ => ?_) fun _ => safe_pure hs)))
    simp at h
    split <;> omega

theorem wide_parseCm (enc : Cbor → Bytes) (v : Cbor) : Safe (parseCm enc v) fun q => UserOk q.user := by
  unfold parseCm
  refine safe_bind (safe_entriesOf fun l _ => safe_bind ((safe_eachInt (I := fun s : CmS => UserOk s.q.user)
    (fun k v s hs => wide_cmEntry enc k v s hs) l userOk_empty).mono fun s hs => ?_))
  refine safe_bind (safe_refuseIf fun _ => safe_bind (safe_refuseIf fun _ => safe_bind (safe_refuseIf fun _ => safe_bind (safe_refuseIf fun _ => ?_))))
  exact safe_bind (safe_refuseIf fun _ => safe_bind (safe_refuseIf fun _ => safe_pure hs))

theorem wide_parseLb (v : Cbor) : Safe (parseLb v) fun q => ∀ n, q.get = some n → n ≤ 1236 := by
  unfold parseLb
  refine safe_bind (safe_entriesOf fun l _ => safe_bind ((safe_eachInt (I := fun _ => True)
    (fun k v s _ => safe_lbEntry k v s) l trivial).mono fun s _ => ?_))
  refine safe_bind (safe_refuseIf fun _ => safe_bind (safe_refuseIf fun _ => safe_bind (safe_refuseIf fun _ => safe_bind (safe_refuseIf fun _ => ?_))))
  refine safe_bind (safe_refuseIf fun h => ?_)
  refine safe_bind (safe_refuseIf fun _ => safe_bind (safe_refuseIf fun _ => safe_bind (safe_refuseIf fun _ => safe_bind (safe_refuseIf fun _ => ?_))))
  refine safe_bind (safe_refuseIf fun _ => safe_pure fun n hn => ?_)
  rw [hn] at h
  simpa using h

theorem status_ok {α : Type} {p : P α} {Q : α → Prop} (h : Safe p Q) {e : Except Byte α} (he : statusOf p = .ok e) {a : α} (ha : e = .ok a) : Q a := by
  subst ha
  unfold statusOf at he
  rcases p with ⟨_ | _⟩ | b
  · cases he
  · cases he
  · cases he; exact h

theorem bindOk {α β : Type} {m : P α} {f : α → P β} {b : β} (h : (m >>= f) = .ok b) : ∃ a, m = .ok a ∧ f a = .ok b := by
  rcases m with _ | a
  · cases h
  · exact ⟨a, rfl, h⟩

/-- **The sizes in a request.** -/
theorem wide_parseReq (hx : ∀ b, (x.sha b).length = 32) {sm2 : Sm2} {enc : Cbor → Bytes} {cmd : Byte} {v : Cbor} {q : Req}
    (h : parseReq x sm2 enc cmd v = .ok q) : ReqOk q := by
  unfold parseReq at h
  repeat' split at h
  all_goals first
    | (cases h; exact trivial)
    | (obtain ⟨e, he, h⟩ := bindOk h
       cases h
       first
         | exact trivial
         | (cases e with
            | error c => exact trivial
            | ok q => first
              | exact status_ok (wide_parseMc hx sm2 v) he rfl
              | exact status_ok (wide_parseGa hx v) he rfl
              | exact status_ok (wide_parseCm enc v) he rfl
              | exact status_ok (wide_parseLb v) he rfl))

end Verif.Ctap.Parse
