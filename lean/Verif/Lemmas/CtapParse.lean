import Verif.Model.CtapParse
/-
Lemmas on the parsers: absence of undefined behaviour, with a postcondition.
-/
namespace Verif.Ctap.Parse

variable {α β σ : Type}

/-- No undefined behaviour, and `Q` of the value if there is one. -/
def Safe (m : P α) (Q : α → Prop) : Prop :=
  match m with
  | .ok a => Q a
  | .error (.code _) => True
  | .error (.ub _) => False

theorem Safe.mono {m : P α} {Q Q' : α → Prop} (h : Safe m Q) (hi : ∀ a, Q a → Q' a) : Safe m Q' := by
  rcases m with ⟨_ | _⟩ | a
  · trivial
  · exact h
  · exact hi a h

theorem safe_pure {a : α} {Q : α → Prop} (h : Q a) : Safe (pure a : P α) Q := h
theorem safe_refuse {c : Byte} {Q : α → Prop} : Safe (refuse c : P α) Q := trivial
theorem safe_bind {m : P α} {f : α → P β} {Q : β → Prop} (h : Safe m fun a => Safe (f a) Q) : Safe (m >>= f) Q := by
  rcases m with ⟨_ | _⟩ | a
  · trivial
  · exact h
  · exact h
theorem safe_refuseIf {b : Bool} {c : Byte} {Q : Unit → Prop} (h : b = false → Q ()) : Safe (refuseIf b c) Q := by
  cases b with
  | true => trivial
  | false => exact h rfl
theorem safe_ite {c : Prop} [Decidable c] {m n : P α} {Q : α → Prop} (h1 : c → Safe m Q) (h2 : ¬ c → Safe n Q) : Safe (if c then m else n) Q := by
  by_cases h : c
  · rw [if_pos h]; exact h1 h
  · rw [if_neg h]; exact h2 h
theorem safe_intOf {c : Cbor} {Q : Int → Prop} (h : ∀ v, c = .int v → -2147483648 ≤ v → v < 2147483648 → Q v) : Safe (intOf c) Q := by
  unfold intOf
  split
  · apply safe_ite
    · intro hc
      simp at hc
      exact safe_pure (h _ rfl hc.1 hc.2)
    · intro _; exact safe_refuse
  · exact safe_refuse
theorem safe_bytesOf {c : Cbor} {Q : Bytes → Prop} (h : ∀ v, c = .bytes v → Q v) : Safe (bytesOf c) Q := by
  unfold bytesOf
  split
  · exact safe_pure (h _ rfl)
  · exact safe_refuse
theorem safe_textOf {c : Cbor} {Q : Bytes → Prop} (h : ∀ v, c = .text v → Q v) : Safe (textOf c) Q := by
  unfold textOf
  split
  · exact safe_pure (h _ rfl)
  · exact safe_refuse
theorem safe_boolOf {c : Cbor} {Q : Bool → Prop} (h : ∀ v, c = .bool v → Q v) : Safe (boolOf c) Q := by
  unfold boolOf
  split
  · exact safe_pure (h _ rfl)
  · exact safe_refuse
theorem safe_entriesOf {c : Cbor} {Q : List (Cbor × Cbor) → Prop} (h : ∀ v, c = .map v → Q v) : Safe (entriesOf c) Q := by
  unfold entriesOf
  split
  · exact safe_pure (h _ rfl)
  · exact safe_refuse
theorem safe_elementsOf {c : Cbor} {Q : List Cbor → Prop} (h : ∀ v, c = .arr v → Q v) : Safe (elementsOf c) Q := by
  unfold elementsOf
  split
  · exact safe_pure (h _ rfl)
  · exact safe_refuse
theorem safe_advance {c : Cbor} {Q : Unit → Prop} (h : c.wf = true → Q ()) : Safe (advance c) Q := by
  unfold advance
  exact safe_refuseIf fun hb => h (by simpa using hb)

theorem safe_copyIn {cap lim : Nat} {b : Bytes} {c : Byte} {Q : Bytes → Prop} (hc : b.length ≤ lim → (if b.length < lim then b.length + 1 else b.length) ≤ cap)
    (h : b.length ≤ lim → Q b) : Safe (copyIn cap lim b c) Q := by
  unfold copyIn
  apply safe_ite
  · intro _; exact safe_refuse
  intro hn
  have hl : b.length ≤ lim := by omega
  rw [if_neg (by have := hc hl; omega)]
  exact safe_pure (h hl)

theorem safe_poke {cap n : Nat} {Q : Unit → Prop} (hc : n < cap) (h : Q ()) : Safe (poke cap n) Q := by
  unfold poke
  rw [if_neg (by omega)]
  exact safe_pure h

theorem safe_eachInt {body : Int → Cbor → σ → P σ} {I : σ → Prop} (h : ∀ k v s, I s → Safe (body k v s) I) (l : List (Cbor × Cbor)) {s : σ} (hs : I s) :
    Safe (eachInt body l s) I := by
  induction l generalizing s with
  | nil => exact safe_pure hs
  | cons e l ih =>
    obtain ⟨k, v⟩ := e
    unfold eachInt
    refine safe_bind (safe_intOf fun key _ _ _ => safe_bind ((h key v s hs).mono fun s' hs' => safe_bind (safe_advance fun _ => ih hs')))

theorem safe_eachText {n : Nat} {body : Bytes → Cbor → σ → P σ} {I : σ → Prop} (h : ∀ k v s, I s → Safe (body k v s) I) (l : List (Cbor × Cbor)) {s : σ} (hs : I s) :
    Safe (eachText n body l s) I := by
  induction l generalizing s with
  | nil => exact safe_pure hs
  | cons e l ih =>
    obtain ⟨k, v⟩ := e
    unfold eachText
    refine safe_bind (safe_textOf fun t _ => safe_bind (safe_copyIn (fun h => ?_) fun _ => safe_bind ((h _ v s hs).mono fun s' hs' => safe_bind (safe_advance fun _ => ih hs'))))
    split <;> omega

theorem safe_findIn (name : Bytes) (l : List (Cbor × Cbor)) : Safe (findIn name l) fun _ => True := by
  induction l with
  | nil => exact safe_pure trivial
  | cons e l ih =>
    obtain ⟨k, v⟩ := e
    cases k with
    | text t =>
      unfold findIn
      exact safe_ite (fun _ => safe_pure trivial) (fun _ => safe_bind (safe_advance fun _ => ih))
    | _ =>
      exact safe_bind (safe_advance fun _ => safe_bind (safe_advance fun _ => ih))

/-- Steps through a parser. -/
macro "safe1" : tactic => `(tactic| first
  | with_reducible exact safe_refuse
  | (with_reducible refine safe_bind ?_)
  | (with_reducible refine safe_intOf ?_; intros)
  | (with_reducible refine safe_bytesOf ?_; intros)
  | (with_reducible refine safe_textOf ?_; intros)
  | (with_reducible refine safe_boolOf ?_; intros)
  | (with_reducible refine safe_entriesOf ?_; intros)
  | (with_reducible refine safe_elementsOf ?_; intros)
  | (with_reducible refine safe_advance ?_; intros)
  | (with_reducible refine safe_refuseIf ?_; intros)
  | (with_reducible refine safe_copyIn ?_ ?_ <;> intros)
  | (with_reducible refine safe_poke ?_ ?_)
  | (with_reducible refine safe_ite ?_ ?_ <;> intros)
  | (with_reducible refine safe_pure ?_)
  | with_reducible exact True.intro
  | omega
  | (split <;> omega))
macro "safes" : tactic => `(tactic| repeat' safe1)

theorem safe_parseRp (x : Ext) (v : Cbor) (s : Bytes × Bytes) : Safe (parseRp x v s) fun _ => True := by
  unfold parseRp
  refine safe_bind (safe_entriesOf fun l _ => safe_eachText (fun k v s _ => ?_) l trivial)
  safes

theorem safe_parseUser (v : Cbor) (s : User) : Safe (parseUser v s) fun _ => True := by
  unfold parseUser
  refine safe_bind (safe_entriesOf fun l _ => safe_eachText (fun k v s _ => ?_) l trivial)
  safes

theorem safe_parseParam (v : Cbor) : Safe (parseParam v) fun _ => True := by
  unfold parseParam
  refine safe_bind (safe_entriesOf fun l _ => safe_bind ((safe_findIn _ _).mono fun a _ => safe_bind ((safe_findIn _ _).mono fun b _ => ?_)))
  split <;> safes

theorem safe_parseParams (sm2 : Sm2) (v : Cbor) : Safe (parseParams sm2 v) fun _ => True := by
  have loop : ∀ l c, Safe (paramsLoop sm2 l c) fun _ => True := by
    intro l
    induction l with
    | nil => intro c; exact safe_pure trivial
    | cons v l ih =>
      intro c
      exact safe_bind ((safe_parseParam v).mono fun _ _ => safe_bind (safe_advance fun _ => ih _))
  unfold parseParams
  refine safe_bind (safe_elementsOf fun l _ => safe_bind ((loop l none).mono fun a _ => ?_))
  cases a with
  | none => exact safe_refuse
  | some a => exact safe_pure trivial

theorem safe_parseDescriptor (v : Cbor) : Safe (parseDescriptor v) fun _ => True := by
  unfold parseDescriptor
  refine safe_bind (safe_entriesOf fun l _ => safe_bind ((safe_findIn _ _).mono fun a _ => ?_))
  split
  · refine safe_bind ((safe_findIn _ _).mono fun a _ => ?_)
    split <;> safes
  · exact safe_refuse

theorem safe_mapM {f : α → P β} (h : ∀ a, Safe (f a) fun _ => True) (l : List α) : Safe (l.mapM f) fun _ => True := by
  induction l with
  | nil => exact safe_pure trivial
  | cons a l ih =>
    rw [List.mapM_cons]
    exact safe_bind ((h a).mono fun _ _ => safe_bind (ih.mono fun _ _ => safe_pure trivial))

theorem safe_parseList (v : Cbor) : Safe (parseList v) fun _ => True := by
  unfold parseList
  refine safe_bind (safe_elementsOf fun l _ => safe_mapM (fun a => ?_) l)
  exact safe_bind ((safe_parseDescriptor a).mono fun _ _ => safe_bind (safe_advance fun _ => safe_pure trivial))

theorem safe_parseOptions (v : Cbor) (o : Options) : Safe (parseOptions v o) fun _ => True := by
  unfold parseOptions
  refine safe_bind (safe_entriesOf fun l h => ?_)
  clear h
  induction l generalizing o with
  | nil => exact safe_pure trivial
  | cons e l ih =>
    obtain ⟨k, v⟩ := e
    rw [List.foldlM_cons]
    refine safe_bind ?_
    refine Safe.mono (Q := fun _ => True) ?_ fun o _ => ih o
    safes

theorem safe_parseCoseKey (v : Cbor) (key : Bytes) : Safe (parseCoseKey v key) fun _ => True := by
  unfold parseCoseKey
  refine safe_bind (safe_entriesOf fun l _ => safe_bind ((safe_eachInt (I := fun _ => True) (fun k v s _ => ?_) l trivial).mono fun s _ => ?_))
  · safes
  · safes

theorem safe_parseMcExt (v : Cbor) (q : McReq) : Safe (parseMcExt v q) fun _ => True := by
  unfold parseMcExt
  refine safe_bind (safe_entriesOf fun l _ => safe_eachText (fun k v s _ => ?_) l trivial)
  safes

theorem safe_protoOf (v : Cbor) : Safe (protoOf v) fun n => n = 1 ∨ n = 2 := by
  unfold protoOf
  refine safe_bind (safe_intOf fun a _ _ _ => safe_bind (safe_refuseIf fun h => safe_pure ?_))
  simp at h
  by_cases ha : a = 1
  · exact Or.inl (by rw [ha]; rfl)
  · exact Or.inr (by rw [h ha]; rfl)

theorem safe_authOf (v : Cbor) (buf : Bytes) : Safe (authOf v buf) fun _ => True := by
  unfold authOf
  refine safe_bind (safe_bytesOf fun b _ => safe_bind (safe_refuseIf fun h => ?_))
  simp at h
  safes

theorem safe_mcEntry (x : Ext) (sm2 : Sm2) (k : Int) (v : Cbor) (s : McS) : Safe (mcEntry x sm2 k v s) fun _ => True := by
  unfold mcEntry
  repeat' first
    | with_reducible exact (safe_parseRp x _ _).mono fun _ _ => safe_pure trivial
    | with_reducible exact (safe_parseUser _ _).mono fun _ _ => safe_pure trivial
    | with_reducible exact (safe_parseParams _ _).mono fun _ _ => safe_pure trivial
    | with_reducible exact (safe_parseList _).mono fun _ _ => safe_pure trivial
    | with_reducible exact (safe_parseMcExt _ _).mono fun _ _ => safe_pure trivial
    | with_reducible exact (safe_parseOptions _ _).mono fun _ _ => safe_pure trivial
    | with_reducible exact (safe_authOf _ _).mono fun _ _ => safe_pure trivial
    | with_reducible exact (safe_protoOf _).mono fun _ _ => safe_pure trivial
    | safe1

theorem safe_parseMc (x : Ext) (sm2 : Sm2) (v : Cbor) : Safe (parseMc x sm2 v) fun _ => True := by
  unfold parseMc
  refine safe_bind (safe_entriesOf fun l _ => safe_bind ((safe_eachInt (I := fun _ => True) (fun k v s _ => safe_mcEntry x sm2 k v s) l trivial).mono fun s _ => ?_))
  safes

theorem safe_hsEntry (k : Int) (v : Cbor) (s : HsS) : Safe (hsEntry k v s) fun _ => True := by
  unfold hsEntry
  apply safe_ite <;> intro _
  · have := safe_parseCoseKey v s.h.key
    revert this
    rcases parseCoseKey v s.h.key with ⟨_ | _⟩ | a
    · intro _; exact safe_refuse
    · intro h; exact h.elim
    · intro _; exact safe_pure trivial
  · safes

theorem safe_parseHs (v : Cbor) (s : HsS) : Safe (parseHs v s) fun _ => True := by
  unfold parseHs
  refine safe_bind (safe_entriesOf fun l _ => safe_bind ((safe_eachInt (I := fun _ => True) (fun k v s _ => safe_hsEntry k v s) l trivial).mono fun s _ => ?_))
  safes

theorem safe_parseGaExt (v : Cbor) (s : GaP) : Safe (parseGaExt v s) fun _ => True := by
  unfold parseGaExt
  refine safe_bind (safe_entriesOf fun l _ => safe_eachText (fun k v s _ => ?_) l trivial)
  repeat' first
    | with_reducible exact (safe_parseHs _ _).mono fun _ _ => safe_pure trivial
    | safe1

theorem safe_gaEntry (x : Ext) (k : Int) (v : Cbor) (s : GaP) : Safe (gaEntry x k v s) fun _ => True := by
  unfold gaEntry
  repeat' first
    | with_reducible exact (safe_parseList _).mono fun _ _ => safe_pure trivial
    | with_reducible exact safe_parseGaExt _ _
    | with_reducible exact (safe_parseOptions _ _).mono fun _ _ => safe_pure trivial
    | with_reducible exact (safe_authOf _ _).mono fun _ _ => safe_pure trivial
    | with_reducible exact (safe_protoOf _).mono fun _ _ => safe_pure trivial
    | safe1

theorem safe_parseGa (x : Ext) (v : Cbor) : Safe (parseGa x v) fun _ => True := by
  unfold parseGa
  refine safe_bind (safe_entriesOf fun l _ => safe_bind ((safe_eachInt (I := fun _ => True) (fun k v s _ => safe_gaEntry x k v s) l trivial).mono fun s _ => ?_))
  safes

theorem safe_cmParam (k : Int) (v : Cbor) (s : CmS) : Safe (cmParam k v s) fun _ => True := by
  unfold cmParam
  apply safe_ite <;> intro _
  · refine safe_bind (safe_bytesOf fun b _ => safe_bind (safe_refuseIf fun h => ?_))
    simp at h
    safes
  apply safe_ite <;> intro _
  · have := safe_parseDescriptor v
    revert this
    rcases parseDescriptor v with ⟨_ | _⟩ | a
    · intro _; exact safe_refuse
    · intro h; exact h.elim
    · intro _
      show Safe (copyIn _ _ _ _ >>= _) _
      safes
  apply safe_ite <;> intro _
  · have := safe_parseUser v s.q.user
    revert this
    rcases parseUser v s.q.user with ⟨_ | _⟩ | a
    · intro _; exact safe_refuse
    · intro h; exact h.elim
    · intro _; exact safe_pure trivial
  · exact safe_pure trivial

theorem safe_cmEntry (enc : Cbor → Bytes) (k : Int) (v : Cbor) (s : CmS) : Safe (cmEntry enc k v s) fun _ => True := by
  unfold cmEntry
  apply safe_ite <;> intro _
  · safes
  apply safe_ite <;> intro _
  · have : Safe (do let l ← entriesOf v; eachInt cmParam l s : P CmS) fun _ => True :=
      safe_bind (safe_entriesOf fun l _ => safe_eachInt (fun k v s _ => safe_cmParam k v s) l trivial)
    revert this
    rcases (do let l ← entriesOf v; eachInt cmParam l s : P CmS) with ⟨_ | _⟩ | a
    · intro _; exact safe_refuse
    · intro h; exact h.elim
    · intro _; exact safe_pure trivial
  apply safe_ite <;> intro _
  · exact safe_bind ((safe_protoOf _).mono fun _ _ => safe_pure trivial)
  apply safe_ite <;> intro _
  · refine safe_bind (safe_bytesOf fun b _ => safe_bind (safe_refuseIf fun h => ?_))
    simp at h
    safes
  · exact safe_pure trivial

theorem safe_parseCm (enc : Cbor → Bytes) (v : Cbor) : Safe (parseCm enc v) fun _ => True := by
  unfold parseCm
  refine safe_bind (safe_entriesOf fun l _ => safe_bind ((safe_eachInt (I := fun _ => True) (fun k v s _ => safe_cmEntry enc k v s) l trivial).mono fun s _ => ?_))
  safes

theorem safe_u16Of (v : Cbor) : Safe (u16Of v) fun _ => True := by
  unfold u16Of
  safes

theorem safe_lbEntry (k : Int) (v : Cbor) (s : LbP) : Safe (lbEntry k v s) fun _ => True := by
  unfold lbEntry
  apply safe_ite <;> intro _
  · exact safe_bind ((safe_u16Of _).mono fun _ _ => safe_pure trivial)
  apply safe_ite <;> intro _
  · safes
  apply safe_ite <;> intro _
  · exact safe_bind ((safe_u16Of _).mono fun _ _ => safe_pure trivial)
  apply safe_ite <;> intro _
  · exact safe_bind ((safe_u16Of _).mono fun _ _ => safe_pure trivial)
  apply safe_ite <;> intro _
  · exact safe_bind ((safe_protoOf _).mono fun _ _ => safe_pure trivial)
  apply safe_ite <;> intro _
  · refine safe_bind (safe_bytesOf fun b _ => safe_bind (safe_refuseIf fun h => ?_))
    simp at h
    safes
  · exact safe_pure trivial

theorem safe_parseLb (v : Cbor) : Safe (parseLb v) fun _ => True := by
  unfold parseLb
  refine safe_bind (safe_entriesOf fun l _ => safe_bind ((safe_eachInt (I := fun _ => True) (fun k v s _ => safe_lbEntry k v s) l trivial).mono fun s _ => ?_))
  safes

end Verif.Ctap.Parse
