import Verif.Lemmas.CtapParse
import Verif.Spec.CtapToy
/-
C63, C66, C76, C77: the parsers of CTAP requests.
-/
namespace Verif.Ctap.Parse

variable {x : Ext}

theorem Safe.noUb {α : Type} {m : P α} {Q : α → Prop} (h : Safe m Q) (u : Ub) : m ≠ .error (.ub u) := by
  rintro rfl
  exact h

/-! ### C63 -/

theorem safe_cpEntry (k : Int) (v : Cbor) (s : CpS)
    (h5 : k = 5 → ∀ b, v = .bytes b → b.length ≤ 80 ∨ s.q.proto = 1 ∨ s.q.proto = 2)
    (h6 : k = 6 → ∀ b, v = .bytes b → b.length ≤ 32 ∨ s.q.proto = 1 ∨ s.q.proto = 2) :
    Safe (cpEntry x k v s) fun s' => (k = 1 → s'.q.proto = 1 ∨ s'.q.proto = 2) ∧ (k ≠ 1 → s'.q.proto = s.q.proto) := by
  unfold cpEntry
  apply safe_ite <;> intro hk
  · have hk : k = 1 := by simpa using hk
    exact safe_bind ((safe_protoOf _).mono fun _ h => safe_pure ⟨fun _ => h, fun h => absurd hk h⟩)
  have hk1 : k ≠ 1 := by simpa using hk
  have other : ∀ {s' : CpS}, s'.q.proto = s.q.proto → (k = 1 → s'.q.proto = 1 ∨ s'.q.proto = 2) ∧ (k ≠ 1 → s'.q.proto = s.q.proto) :=
    fun h => ⟨fun h => absurd h hk1, fun _ => h⟩
  apply safe_ite <;> intro hk
  · exact safe_bind (safe_intOf fun _ _ _ _ => safe_pure (other rfl))
  apply safe_ite <;> intro hk
  · exact safe_bind ((safe_parseCoseKey _ _).mono fun _ _ => safe_pure (other rfl))
  apply safe_ite <;> intro hk
  · refine safe_bind (safe_bytesOf fun b _ => safe_bind (safe_refuseIf fun h => safe_bind (safe_copyIn (fun _ => ?_) fun _ => safe_pure (other rfl))))
    simp at h
    split <;> omega
  apply safe_ite <;> intro hk
  · refine safe_bind (safe_bytesOf fun b hb => safe_bind (safe_refuseIf fun h => safe_bind (safe_copyIn (fun _ => ?_) fun _ => safe_pure (other rfl))))
    have := h5 (by simpa using hk) b hb
    simp at h
    rw [if_neg (by omega)]
    rcases this with h' | h' | h'
    · exact h'
    · rw [h.1 h']; decide
    · rw [h.2 h']; decide
  apply safe_ite <;> intro hk
  · refine safe_bind (safe_bytesOf fun b hb => safe_bind (safe_refuseIf fun h => safe_bind (safe_copyIn (fun _ => ?_) fun _ => safe_pure (other rfl))))
    have := h6 (by simpa using hk) b hb
    simp at h
    rw [if_neg (by omega)]
    rcases this with h' | h' | h'
    · exact h'
    · rw [h.1 h']; decide
    · rw [h.2 h']; decide
  apply safe_ite <;> intro hk
  · exact safe_bind (safe_intOf fun _ _ _ _ => safe_bind (safe_refuseIf fun _ => safe_bind (safe_refuseIf fun _ => safe_pure (other rfl))))
  apply safe_ite <;> intro hk
  · refine safe_bind (safe_textOf fun t _ => safe_bind (safe_copyIn (fun _ => ?_) fun _ => safe_bind (safe_poke ?_ (safe_pure (other rfl)))))
    · split <;> omega
    · omega
  · exact safe_pure (other rfl)

/-- Parsing a clientPIN request writes only to its fields if every newPinEnc of more than 80 bytes and every
pinHashEnc of more than 32 bytes comes after a pinUvAuthProtocol. (Missing: other orders, for which it is false:
`C63_new_pin_enc_refuted`, `C63_pin_hash_enc_refuted`.) -/
theorem C63_client_pin_partial (entries : List (Cbor × Cbor))
    (h5 : ∀ pre post b, entries = pre ++ (.int 5, .bytes b) :: post → b.length > 80 → ∃ p, (.int 1, p) ∈ pre)
    (h6 : ∀ pre post b, entries = pre ++ (.int 6, .bytes b) :: post → b.length > 32 → ∃ p, (.int 1, p) ∈ pre) (u : Ub) :
    parseCp x (.map entries) ≠ .error (.ub u) := by
  have loop : ∀ l pre (s : CpS), entries = pre ++ l → ((∃ p, (Cbor.int 1, p) ∈ pre) → s.q.proto = 1 ∨ s.q.proto = 2) →
      Safe (eachInt (cpEntry x) l s) fun _ => True := by
    intro l
    induction l with
    | nil => intro _ _ _ _; exact safe_pure trivial
    | cons e l ih =>
      obtain ⟨k, v⟩ := e
      intro pre s he hs
      unfold eachInt
      refine safe_bind (safe_intOf fun key hk _ _ => safe_bind ((safe_cpEntry key v s ?_ ?_).mono fun s' hs' => safe_bind (safe_advance fun _ => ?_)))
      · rintro rfl b rfl
        subst hk
        by_cases hb : b.length ≤ 80
        · exact Or.inl hb
        · exact Or.inr (hs (h5 pre l b he (by omega)))
      · rintro rfl b rfl
        subst hk
        by_cases hb : b.length ≤ 32
        · exact Or.inl hb
        · exact Or.inr (hs (h6 pre l b he (by omega)))
      · refine ih (pre ++ [(k, v)]) s' (by simp [he]) ?_
        rintro ⟨p, hp⟩
        by_cases h1 : key = 1
        · exact hs'.1 h1
        · rw [hs'.2 h1]
          rw [List.mem_append, List.mem_singleton] at hp
          rcases hp with hp | hp
          · exact hs ⟨p, hp⟩
          · injection hp with e1 e2
            rw [hk] at e1
            injection e1 with e1
            exact absurd e1.symm h1
  have : Safe (parseCp x (.map entries)) fun _ => True := by
    refine safe_bind (safe_entriesOf fun l hl => ?_)
    cases hl
    refine safe_bind ((loop entries [] cpInit rfl (fun ⟨_, h⟩ => (nomatch h))).mono fun s _ => ?_)
    safes
  exact this.noUb u

/-- A clientPIN request that begins with a newPinEnc of more than 80 bytes writes beyond the field that has 80. -/
theorem C63_new_pin_enc_refuted (b : Bytes) (hb : b.length > 80) (rest : List (Cbor × Cbor)) :
    parseCp x (.map ((.int 5, .bytes b) :: rest)) = .error (.ub .oob) := by
  have h : cpEntry x 5 (.bytes b) cpInit = .error (.ub .oob) := by
    show ((do
      refuseIf ((cpInit.q.proto == 1 && b.length != 64) || (cpInit.q.proto == 2 && b.length != 80)) Code.invalidCbor
      let b ← copyIn 80 b.length b Code.invalidCbor
      return { cpInit with q := { cpInit.q with newPinEnc := put cpInit.q.newPinEnc b }, seenNew := true }) : P CpS) = _
    have : copyIn 80 b.length b Code.invalidCbor = .error (.ub .oob) := by
      unfold copyIn
      rw [if_neg (by omega), if_pos (by rw [if_neg (by omega)]; omega)]
    rw [this]
    rfl
  show (eachInt (cpEntry x) ((.int 5, .bytes b) :: rest) cpInit >>= _) = _
  show ((cpEntry x 5 (.bytes b) cpInit >>= _) >>= _) = _
  rw [h]
  rfl

/-- A clientPIN request that begins with a pinHashEnc of more than 32 bytes writes beyond the field that has 32. -/
theorem C63_pin_hash_enc_refuted (b : Bytes) (hb : b.length > 32) (rest : List (Cbor × Cbor)) :
    parseCp x (.map ((.int 6, .bytes b) :: rest)) = .error (.ub .oob) := by
  have h : cpEntry x 6 (.bytes b) cpInit = .error (.ub .oob) := by
    show ((do
      refuseIf ((cpInit.q.proto == 1 && b.length != 16) || (cpInit.q.proto == 2 && b.length != 32)) Code.invalidCbor
      let b ← copyIn 32 b.length b Code.invalidCbor
      return { cpInit with q := { cpInit.q with pinHashEnc := put cpInit.q.pinHashEnc b }, seenHash := true }) : P CpS) = _
    have : copyIn 32 b.length b Code.invalidCbor = .error (.ub .oob) := by
      unfold copyIn
      rw [if_neg (by omega), if_pos (by rw [if_neg (by omega)]; omega)]
    rw [this]
    rfl
  show (eachInt (cpEntry x) ((.int 6, .bytes b) :: rest) cpInit >>= _) = _
  show ((cpEntry x 6 (.bytes b) cpInit >>= _) >>= _) = _
  rw [h]
  rfl

/-- Parsing any other request never writes outside its fields. -/
theorem C63_other_commands (sm2 : Sm2) (enc : Cbor → Bytes) (cmd : Byte) (hc : cmd ≠ 6) (v : Cbor) (u : Ub) :
    parseReq x sm2 enc cmd v ≠ .error (.ub u) := by
  have st : ∀ {α : Type} {m : P α} {f : Except Byte α → P Req}, Safe m (fun _ => True) → (∀ a, Safe (f a) fun _ => True) →
      Safe (statusOf m >>= f) fun _ => True := by
    intro α m f h hf
    rcases m with ⟨_ | _⟩ | a
    · exact hf _
    · exact h.elim
    · exact hf _
  have : Safe (parseReq x sm2 enc cmd v) fun _ => True := by
    unfold parseReq
    apply safe_ite <;> intro _
    · exact st (safe_parseMc x sm2 v) fun _ => trivial
    apply safe_ite <;> intro _
    · exact st (safe_parseGa x v) fun _ => trivial
    apply safe_ite <;> intro _
    · trivial
    apply safe_ite <;> intro _
    · trivial
    apply safe_ite <;> intro h
    · exact absurd (by simpa using h) hc
    apply safe_ite <;> intro _
    · trivial
    apply safe_ite <;> intro _
    · exact st (safe_parseCm enc v) fun _ => trivial
    apply safe_ite <;> intro _
    · trivial
    apply safe_ite <;> intro _
    · exact st (safe_parseLb v) fun _ => trivial
    · trivial
  exact this.noUb u

/-! ### C66 -/

/-- The first value under a text key, if any. -/
def valueOf (name : Bytes) : List (Cbor × Cbor) → Option Cbor
  | [] => none
  | (.text t, v) :: l => if t = name then some v else valueOf name l
  | _ :: l => valueOf name l

/-- `c` is a PublicKeyCredentialParameters for a public key with algorithm `a`. -/
structure IsParam (c : Cbor) (a : Int) : Prop where
  entries : ∃ l, c = .map l ∧ valueOf (str "type") l = some (.text (str "public-key")) ∧ valueOf (str "alg") l = some (.int a)
  range : -2 ^ 31 ≤ a ∧ a < 2 ^ 31
  wf : c.wf = true

/-- The elements of a list describe public keys with these algorithms. -/
inductive Describes : List Cbor → List Int → Prop where
  | nil : Describes [] []
  | cons {c : Cbor} {a : Int} {l : List Cbor} {as : List Int} : IsParam c a → Describes l as → Describes (c :: l) (a :: as)

/-- COSE algorithms that this device signs with: ES256 (-7), EdDSA (-8) and, if enabled, the one configured for SM2. -/
def Supported (sm2 : Sm2) (a : Int) : Prop := a = -7 ∨ a = -8 ∨ (sm2.enabled = true ∧ i32 a = sm2.algo)

theorem findIn_eq (name : Bytes) (l : List (Cbor × Cbor)) (h : wfEntries l = true) : findIn name l = .ok (valueOf name l) := by
  induction l with
  | nil => rfl
  | cons e l ih =>
    obtain ⟨k, v⟩ := e
    have hw : (k.wf && v.wf && wfEntries l) = true := h
    simp only [Bool.and_eq_true] at hw
    have hv : advance v = .ok () := by unfold advance refuseIf; rw [hw.1.2]; rfl
    have hkk : advance k = .ok () := by unfold advance refuseIf; rw [hw.1.1]; rfl
    have go : (do advance k; advance v; findIn name l : P (Option Cbor)) = .ok (valueOf name l) := by
      rw [hkk, hv]
      exact ih hw.2
    cases k with
    | text t =>
      unfold findIn valueOf
      by_cases ht : t = name
      · rw [if_pos (by simp [ht]), if_pos ht]; rfl
      · rw [if_neg (by simp [ht]), if_neg ht, hv]
        exact ih hw.2
    | _ => exact go

theorem i32_eq {a b : Int} (ha : -2 ^ 31 ≤ a ∧ a < 2 ^ 31) (hb : -2 ^ 31 ≤ b ∧ b < 2 ^ 31) (h : i32 a = i32 b) : a = b := by
  have := congrArg UInt32.toNat h
  unfold i32 at this
  simp only [UInt32.toNat_ofNat'] at this
  omega

theorem supported_iff {sm2 : Sm2} {a : Int} (h : -2 ^ 31 ≤ a ∧ a < 2 ^ 31) : algOk sm2 (i32 a) = true ↔ Supported sm2 a := by
  unfold algOk Supported
  simp only [Bool.or_eq_true, beq_iff_eq, Bool.and_eq_true, or_assoc]
  have e1 : i32 a = ES256 ↔ a = -7 := ⟨fun e => i32_eq h (by decide) (e.trans (by decide : ES256 = i32 (-7))), fun e => by rw [e]; decide⟩
  have e2 : i32 a = EDDSA ↔ a = -8 := ⟨fun e => i32_eq h (by decide) (e.trans (by decide : EDDSA = i32 (-8))), fun e => by rw [e]; decide⟩
  rw [e1, e2]

theorem parseParam_ok {c : Cbor} (hw : c.wf = true) {r : UInt32} : parseParam c = .ok r ↔ ∃ a, IsParam c a ∧ r = i32 a := by
  unfold parseParam
  cases c with
  | map l =>
    have hl : wfEntries l = true := hw
    show (findIn _ l >>= _) = _ ↔ _
    rw [findIn_eq _ l hl]
    show (findIn _ l >>= _) = _ ↔ _
    rw [findIn_eq _ l hl]
    show (match valueOf (str "type") l, valueOf (str "alg") l with
      | some (.text t), some (.int a) => (do
        refuseIf (t != str "public-key") Code.unsupportedAlgorithm
        let a ← intOf (.int a)
        return i32 a : P UInt32)
      | _, _ => refuse Code.missingParameter) = _ ↔ _
    constructor
    · split
      · rename_i t a e1 e2
        intro h
        by_cases ht : t = str "public-key"
        · have h' : (do let a ← intOf (.int a); return i32 a : P UInt32) = .ok r := by
            rw [ht] at h
            exact h
          unfold intOf at h'
          by_cases ha : (decide (-2147483648 ≤ a) && decide (a < 2147483648)) = true
          · simp only [ha, if_true] at h'
            injection h' with h'
            simp at ha
            exact ⟨a, ⟨⟨l, rfl, by rw [e1, ht], e2⟩, by omega, hw⟩, h'.symm⟩
          · simp only [ha] at h'
            cases h'
        · have : (t != str "public-key") = true := by simp [ht]
          rw [this] at h
          cases h
      · intro h; cases h
    · rintro ⟨a, ⟨⟨l', e, e1, e2⟩, ha, _⟩, rfl⟩
      cases e
      rw [e1, e2]
      have : intOf (.int a) = .ok a := by
        show (if (decide (-2147483648 ≤ a) && decide (a < 2147483648)) = true then pure a else refuse Code.invalidCbor) = _
        rw [if_pos (by simp; omega)]
        rfl
      show (do
        refuseIf (str "public-key" != str "public-key") Code.unsupportedAlgorithm
        let a ← intOf (.int a)
        return i32 a : P UInt32) = _
      rw [this, show (str "public-key" != str "public-key") = false by simp]
      rfl
  | _ =>
    constructor
    · intro h; cases h
    · rintro ⟨a, ⟨⟨l, e, _⟩, _, _⟩, _⟩
      cases e

theorem parseParam_wf {c : Cbor} {r : UInt32} (h : (do let a ← parseParam c; advance c; return a : P UInt32) = .ok r) :
    c.wf = true ∧ parseParam c = .ok r := by
  cases hp : parseParam c with
  | error e =>
    rw [hp] at h
    cases h
  | ok a =>
    rw [hp] at h
    cases hw : c.wf with
    | false =>
      have h' : (do advance c; return a : P UInt32) = .ok r := h
      unfold advance at h'
      rw [hw] at h'
      cases h'
    | true =>
      have h' : (do advance c; return a : P UInt32) = .ok r := h
      unfold advance at h'
      rw [hw] at h'
      cases h'
      exact ⟨rfl, rfl⟩

/-- The choice is the one before, or the first supported one. -/
theorem paramsLoop_ok (sm2 : Sm2) (l : List Cbor) (c r : Option UInt32) :
    paramsLoop sm2 l c = .ok r ↔ ∃ as, Describes l as ∧ r = c.or ((as.find? fun a => algOk sm2 (i32 a)).map i32) := by
  induction l generalizing c with
  | nil =>
    constructor
    · intro h
      cases h
      exact ⟨[], .nil, by simp⟩
    · rintro ⟨as, h, rfl⟩
      cases h
      simp [paramsLoop]
      rfl
  | cons v l ih =>
    unfold paramsLoop
    constructor
    · intro h
      cases hp : parseParam v with
      | error e => rw [hp] at h; cases h
      | ok a =>
        rw [hp] at h
        cases hw : v.wf with
        | false =>
          have h' : (do advance v; paramsLoop sm2 l (if algOk sm2 a then c.or (some a) else c) : P (Option UInt32)) = .ok r := h
          unfold advance at h'
          rw [hw] at h'
          cases h'
        | true =>
          have h' : (do advance v; paramsLoop sm2 l (if algOk sm2 a then c.or (some a) else c) : P (Option UInt32)) = .ok r := h
          unfold advance at h'
          rw [hw] at h'
          obtain ⟨as, h1, h2⟩ := (ih _).mp h'
          obtain ⟨a', ha, e⟩ := (parseParam_ok hw).mp hp
          refine ⟨a' :: as, .cons ha h1, ?_⟩
          rw [h2, List.find?_cons, ← e]
          cases algOk sm2 a <;> cases c <;> simp [e]
    · rintro ⟨as, h, rfl⟩
      cases h with
      | cons ha h1 =>
        rename_i a' as
        rw [(parseParam_ok ha.wf).mpr ⟨a', ha, rfl⟩]
        show (do advance v; paramsLoop sm2 l (if algOk sm2 (i32 a') then c.or (some (i32 a')) else c) : P (Option UInt32)) = _
        unfold advance
        rw [ha.wf]
        show paramsLoop sm2 l _ = _
        refine (ih _).mpr ⟨as, h1, ?_⟩
        rw [List.find?_cons]
        cases algOk sm2 (i32 a') <;> cases c <;> simp

/-- The algorithm that is chosen from a list is the first that is supported, and all elements are examined: the list is
refused if any of them is not a well-formed description of a public key. -/
theorem C66_first_supported (sm2 : Sm2) (l : List Cbor) (r : UInt32) :
    parseParams sm2 (.arr l) = .ok r ↔ ∃ pre a post, Describes l (pre ++ a :: post) ∧
      (∀ b ∈ pre, ¬ Supported sm2 b) ∧ Supported sm2 a ∧ r = i32 a := by
  have range : ∀ {l : List Cbor} {as : List Int}, Describes l as → ∀ a ∈ as, -2 ^ 31 ≤ a ∧ a < 2 ^ 31 := by
    intro l as h
    induction h with
    | nil => nofun
    | cons h _ ih =>
      intro a ha
      rcases List.mem_cons.mp ha with rfl | ha
      · exact h.range
      · exact ih a ha
  have e : parseParams sm2 (.arr l) = .ok r ↔ paramsLoop sm2 l none = .ok (some r) := by
    show ((paramsLoop sm2 l none) >>= _) = _ ↔ _
    rcases paramsLoop sm2 l none with _ | _ | a
    · exact ⟨nofun, nofun⟩
    · exact ⟨nofun, nofun⟩
    · constructor
      · intro h; cases h; rfl
      · intro h; cases h; rfl
  rw [e, paramsLoop_ok]
  constructor
  · rintro ⟨as, h, hr⟩
    rw [Option.none_or] at hr
    obtain ⟨a, ha, hr'⟩ := Option.map_eq_some_iff.mp hr.symm
    obtain ⟨hs, pre, post, rfl, hpre⟩ := List.find?_eq_some_iff_append.mp ha
    refine ⟨pre, a, post, h, fun b hb => ?_, (supported_iff (range h a (by simp))).mp hs, hr'.symm⟩
    rw [← supported_iff (range h b (by simp [hb]))]
    simpa using hpre b hb
  · rintro ⟨pre, a, post, h, hpre, ha, rfl⟩
    refine ⟨_, h, ?_⟩
    rw [Option.none_or]
    have : List.find? (fun a => algOk sm2 (i32 a)) (pre ++ a :: post) = some a := by
      rw [List.find?_eq_some_iff_append]
      refine ⟨(supported_iff (range h a (by simp))).mpr ha, pre, post, rfl, fun b hb => ?_⟩
      have := hpre b hb
      rw [← supported_iff (range h b (by simp [hb]))] at this
      simpa using this
    rw [this]
    rfl

/-! ### C76 -/

/-- `v` is the value of the only entry whose key is one of `K`. -/
def Only (K : Cbor → Prop) (v : Cbor) (l : List (Cbor × Cbor)) : Prop :=
  ∃ pre k post, l = pre ++ (k, v) :: post ∧ K k ∧ (∀ e ∈ pre, ¬ K e.1) ∧ ∀ e ∈ post, ¬ K e.1

/-- Texts that are compared as C strings: the rest after a NUL does not count. -/
def Named (n : Bytes) (k : Cbor) : Prop := ∃ t, k = .text t ∧ t.takeWhile (· != 0) = n

section
variable {α β σ : Type}

theorem bind_ok {m : P α} {f : α → P β} {b : β} (h : (m >>= f) = .ok b) : ∃ a, m = .ok a ∧ f a = .ok b := by
  cases m with
  | error e => cases h
  | ok a => exact ⟨a, rfl, h⟩

theorem refuseIf_ok {c : Bool} {e : Byte} {u : Unit} (h : refuseIf c e = .ok u) : c = false := by
  cases c with
  | false => rfl
  | true => cases h

theorem refuse_ok {c : Byte} {a : α} (h : (refuse c : P α) = .ok a) : False := by cases h

theorem pure_ok {a b : α} (h : (pure a : P α) = .ok b) : a = b := by cases h; rfl

theorem intOf_ok {c : Cbor} {v : Int} (h : intOf c = .ok v) : c = .int v := by
  cases c with
  | int w =>
    have h : (if (decide (-2147483648 ≤ w) && decide (w < 2147483648)) = true then pure w else refuse Code.invalidCbor) = .ok v := h
    split at h
    · cases h; rfl
    · cases h
  | _ => cases h

theorem textOf_ok {c : Cbor} {t : Bytes} (h : textOf c = .ok t) : c = .text t := by cases c <;> cases h; rfl
theorem bytesOf_ok {c : Cbor} {t : Bytes} (h : bytesOf c = .ok t) : c = .bytes t := by cases c <;> cases h; rfl
theorem entriesOf_ok {c : Cbor} {l : List (Cbor × Cbor)} (h : entriesOf c = .ok l) : c = .map l := by cases c <;> cases h; rfl
theorem elementsOf_ok {c : Cbor} {l : List Cbor} (h : elementsOf c = .ok l) : c = .arr l := by cases c <;> cases h; rfl

theorem copyIn_ok {cap lim : Nat} {b r : Bytes} {e : Byte} (h : copyIn cap lim b e = .ok r) : r = b ∧ b.length ≤ lim := by
  unfold copyIn at h
  by_cases h1 : b.length > lim
  · rw [if_pos h1] at h
    cases h
  rw [if_neg h1] at h
  by_cases h2 : (if b.length < lim then b.length + 1 else b.length) > cap
  · rw [if_pos h2] at h
    cases h
  · rw [if_neg h2] at h
    cases h
    exact ⟨rfl, by omega⟩

/-- A field of the state that only entries with one key write. -/
theorem eachInt_keeps {body : Int → Cbor → σ → P σ} {f : σ → β} {k : Int}
    (hk : ∀ key v s s', key ≠ k → body key v s = .ok s' → f s' = f s) {l : List (Cbor × Cbor)} (hl : ∀ e ∈ l, e.1 ≠ .int k)
    {s s' : σ} (h : eachInt body l s = .ok s') : f s' = f s := by
  induction l generalizing s with
  | nil => cases h; rfl
  | cons e l ih =>
    obtain ⟨key, h1, h⟩ := bind_ok h
    obtain ⟨s1, h2, h⟩ := bind_ok h
    obtain ⟨_, _, h⟩ := bind_ok h
    rw [ih (fun e he => hl e (List.mem_cons_of_mem _ he)) h]
    refine hk _ _ _ _ ?_ h2
    rintro rfl
    exact hl e (List.mem_cons_self ..) (intOf_ok h1)

theorem eachInt_append {body : Int → Cbor → σ → P σ} {l l' : List (Cbor × Cbor)} {s : σ} :
    eachInt body (l ++ l') s = (eachInt body l s >>= eachInt body l') := by
  induction l generalizing s with
  | nil => rfl
  | cons e l ih =>
    obtain ⟨k, v⟩ := e
    show (intOf k >>= fun key => body key v s >>= fun s => advance v >>= fun _ => eachInt body (l ++ l') s) =
      ((intOf k >>= fun key => body key v s >>= fun s => advance v >>= fun _ => eachInt body l s) >>= eachInt body l')
    cases intOf k with
    | error _ => rfl
    | ok key =>
      show (body key v s >>= fun s => advance v >>= fun _ => eachInt body (l ++ l') s) =
        ((body key v s >>= fun s => advance v >>= fun _ => eachInt body l s) >>= eachInt body l')
      cases body key v s with
      | error _ => rfl
      | ok s =>
        show (advance v >>= fun _ => eachInt body (l ++ l') s) = ((advance v >>= fun _ => eachInt body l s) >>= eachInt body l')
        cases advance v with
        | error _ => rfl
        | ok _ => exact ih

theorem eachInt_only {body : Int → Cbor → σ → P σ} {f : σ → β} {k : Int}
    (hk : ∀ key v s s', key ≠ k → body key v s = .ok s' → f s' = f s) {l : List (Cbor × Cbor)} {v : Cbor}
    (hl : Only (· = .int k) v l) {s s' : σ} (h : eachInt body l s = .ok s') :
    ∃ s1 s2, f s1 = f s ∧ body k v s1 = .ok s2 ∧ f s' = f s2 := by
  obtain ⟨pre, k', post, rfl, rfl, h1, h2⟩ := hl
  rw [eachInt_append] at h
  obtain ⟨s1, e1, h⟩ := bind_ok h
  obtain ⟨key, ek, h⟩ := bind_ok (show (intOf (.int k) >>= fun key => body key v s1 >>= fun s => advance v >>= fun _ => eachInt body post s) = _ from h)
  obtain ⟨s2, e2, h⟩ := bind_ok h
  obtain ⟨_, _, h'⟩ := bind_ok h
  have := intOf_ok ek
  injection this with this
  subst this
  exact ⟨s1, s2, eachInt_keeps hk h1 e1, e2, eachInt_keeps hk h2 h'⟩

theorem eachText_keeps {n : Nat} {body : Bytes → Cbor → σ → P σ} {f : σ → β} {name : Bytes}
    (hk : ∀ key v s s', key ≠ name → body key v s = .ok s' → f s' = f s) {l : List (Cbor × Cbor)} (hl : ∀ e ∈ l, ¬ Named name e.1)
    {s s' : σ} (h : eachText n body l s = .ok s') : f s' = f s := by
  induction l generalizing s with
  | nil => cases h; rfl
  | cons e l ih =>
    obtain ⟨t, h1, h⟩ := bind_ok h
    obtain ⟨t', h3, h⟩ := bind_ok h
    obtain ⟨s1, h2, h⟩ := bind_ok h
    obtain ⟨_, _, h⟩ := bind_ok h
    rw [ih (fun e he => hl e (List.mem_cons_of_mem _ he)) h]
    refine hk _ _ _ _ ?_ h2
    intro e'
    rw [(copyIn_ok h3).1] at e'
    exact hl e (List.mem_cons_self ..) ⟨t, textOf_ok h1, e'⟩

theorem eachText_append {n : Nat} {body : Bytes → Cbor → σ → P σ} {l l' : List (Cbor × Cbor)} {s s' : σ}
    (h : eachText n body (l ++ l') s = .ok s') : ∃ s1, eachText n body l s = .ok s1 ∧ eachText n body l' s1 = .ok s' := by
  induction l generalizing s with
  | nil => exact ⟨s, rfl, h⟩
  | cons e l ih =>
    obtain ⟨k, v⟩ := e
    obtain ⟨t, h1, h⟩ := bind_ok h
    obtain ⟨t', h3, h⟩ := bind_ok h
    obtain ⟨s1, h2, h⟩ := bind_ok h
    obtain ⟨_, h4, h⟩ := bind_ok h
    obtain ⟨s2, e1, e2⟩ := ih h
    refine ⟨s2, ?_, e2⟩
    show (textOf k >>= fun t => copyIn n n t Code.limitExceeded >>= fun t => body (cstr t) v s >>= fun s => advance v >>= fun _ => eachText n body l s) = _
    rw [h1]
    show (copyIn n n t Code.limitExceeded >>= fun t => body (cstr t) v s >>= fun s => advance v >>= fun _ => eachText n body l s) = _
    rw [h3]
    show (body (cstr t') v s >>= fun s => advance v >>= fun _ => eachText n body l s) = _
    rw [h2]
    show (advance v >>= fun _ => eachText n body l s1) = _
    rw [h4]
    exact e1

theorem eachText_only {n : Nat} {body : Bytes → Cbor → σ → P σ} {f : σ → β} {name : Bytes}
    (hk : ∀ key v s s', key ≠ name → body key v s = .ok s' → f s' = f s) {l : List (Cbor × Cbor)} {v : Cbor}
    (hl : Only (Named name) v l) {s s' : σ} (h : eachText n body l s = .ok s') :
    ∃ s1 s2, f s1 = f s ∧ body name v s1 = .ok s2 ∧ f s' = f s2 := by
  obtain ⟨pre, k', post, rfl, ⟨t, rfl, ht⟩, h1, h2⟩ := hl
  obtain ⟨s1, e1, h⟩ := eachText_append h
  obtain ⟨t', ek, h⟩ := bind_ok (show (textOf (.text t) >>= fun t => copyIn n n t Code.limitExceeded >>= fun t => body (cstr t) v s1 >>= fun s => advance v >>= fun _ => eachText n body post s) = _ from h)
  obtain ⟨t'', et, h⟩ := bind_ok h
  obtain ⟨s2, e2, h⟩ := bind_ok h
  obtain ⟨_, _, h'⟩ := bind_ok h
  cases ek
  rw [(copyIn_ok et).1, show cstr t = name from ht] at e2
  exact ⟨s1, s2, eachText_keeps hk h1 e1, e2, eachText_keeps hk h2 h'⟩

/-- A loop over texts that keeps a field keeps it. -/
theorem eachText_all {n : Nat} {body : Bytes → Cbor → σ → P σ} {f : σ → β}
    (hk : ∀ key v s s', body key v s = .ok s' → f s' = f s) {l : List (Cbor × Cbor)}
    {s s' : σ} (h : eachText n body l s = .ok s') : f s' = f s := by
  induction l generalizing s with
  | nil => cases h; rfl
  | cons e l ih =>
    obtain ⟨t, h1, h⟩ := bind_ok h
    obtain ⟨t', h3, h⟩ := bind_ok h
    obtain ⟨s1, h2, h⟩ := bind_ok h
    obtain ⟨_, _, h⟩ := bind_ok h
    rw [ih h, hk _ _ _ _ h2]

end

/-- Takes a run of a parser that succeeded apart. -/
syntax "opened " ident : tactic
macro_rules
  | `(tactic| opened $h:ident) => `(tactic| repeat' (first
      | with_reducible exact (refuse_ok $h:ident).elim
      | (with_reducible replace $h:ident := pure_ok $h:ident; subst $h:ident; rfl)
      | with_reducible obtain ⟨_, _, $h:ident⟩ := bind_ok $h:ident
      | split at $h:ident))

theorem parseMcExt_rp {v : Cbor} {q q' : McReq} (h : parseMcExt v q = .ok q') : q'.rpHash = q.rpHash := by
  obtain ⟨l, _, h⟩ := bind_ok h
  refine eachText_all (f := McReq.rpHash) ?_ h
  intro key v s s' h
  opened h

theorem mcEntry_rp {sm2 : Sm2} {key : Int} {v : Cbor} {s s' : McS} (hk : key ≠ 2) (h : mcEntry x sm2 key v s = .ok s') :
    s'.q.rpHash = s.q.rpHash := by
  unfold mcEntry at h
  split at h
  · opened h
  split at h
  · exact absurd (by simpa using ‹(key == 2) = true›) hk
  split at h
  · opened h
  split at h
  · opened h
  split at h
  · opened h
  split at h
  · obtain ⟨q, h1, h⟩ := bind_ok h
    cases h
    exact parseMcExt_rp h1
  split at h
  · opened h
  split at h
  · opened h
  split at h
  · opened h
  · opened h

/-- In a request for a new credential the relying party is the one whose identifier is given, which has at most 254 bytes. -/
theorem C76_registration (sm2 : Sm2) {l m : List (Cbor × Cbor)} {d : Bytes} {q : McReq} (h : parseMc x sm2 (.map l) = .ok q)
    (hl : Only (· = .int 2) (.map m) l) (hm : Only (Named (str "id")) (.text d) m) : d.length ≤ 254 ∧ q.rpHash = x.sha d := by
  obtain ⟨s, hs, h⟩ := bind_ok (show (eachInt (mcEntry x sm2) l mcInit >>= _) = _ from h)
  obtain ⟨_, _, h⟩ := bind_ok h
  cases h
  obtain ⟨s1, s2, _, h2, e⟩ := eachInt_only (f := fun s : McS => s.q.rpHash) (fun _ _ _ _ hk h => mcEntry_rp hk h) hl hs
  have h2 : (parseRp x (.map m) (s1.q.rpHash, s1.q.rpId) >>= fun rp => pure
      { s1 with q := { s1.q with rpHash := rp.1, rpId := rp.2 }, seen := (s1.seen.1, true, s1.seen.2.2) }) = .ok s2 := h2
  obtain ⟨rp, h3, h2⟩ := bind_ok h2
  cases h2
  have h3 : eachText 4 (fun key v (s : Bytes × Bytes) => (do
    let t ← textOf v
    if key == str "id" then do
      let d ← copyIn 255 254 t Code.invalidCbor
      poke 255 d.length
      return (x.sha d, truncRpId d)
    else return s : P (Bytes × Bytes))) m (s1.q.rpHash, s1.q.rpId) = .ok rp := h3
  obtain ⟨p1, p2, _, h4, e'⟩ := eachText_only (f := fun s : Bytes × Bytes => s.1) (name := str "id") (by
    intro key v s s' hk h
    obtain ⟨_, _, h⟩ := bind_ok h
    rw [if_neg (by simpa using hk)] at h
    cases h
    rfl) hm h3
  obtain ⟨t, ht, h4⟩ := bind_ok h4
  cases ht
  rw [if_pos (by simp)] at h4
  obtain ⟨d', hd, h4⟩ := bind_ok h4
  obtain ⟨_, _, h4⟩ := bind_ok h4
  cases h4
  obtain ⟨rfl, hd⟩ := copyIn_ok hd
  exact ⟨hd, e.trans e'⟩

theorem parseGaExt_rp {v : Cbor} {s s' : GaP} (h : parseGaExt v s = .ok s') : s'.q.rpHash = s.q.rpHash := by
  obtain ⟨l, _, h⟩ := bind_ok h
  refine eachText_all (f := fun s : GaP => s.q.rpHash) ?_ h
  intro key v s s' h
  opened h

theorem gaEntry_rp {key : Int} {v : Cbor} {s s' : GaP} (hk : key ≠ 1) (h : gaEntry x key v s = .ok s') :
    s'.q.rpHash = s.q.rpHash := by
  unfold gaEntry at h
  split at h
  · exact absurd (by simpa using ‹(key == 1) = true›) hk
  split at h
  · opened h
  split at h
  · opened h
  split at h
  · exact parseGaExt_rp h
  split at h
  · opened h
  split at h
  · opened h
  split at h
  · opened h
  · opened h

/-- What getAssertion takes the relying party to be. -/
theorem ga_rp {l : List (Cbor × Cbor)} {d : Bytes} {q : GaReq} (h : parseGa x (.map l) = .ok q)
    (hl : Only (· = .int 1) (.text d) l) : d.length ≤ 254 ∧ q.rpHash = x.sha (if d.length = 254 then d.take 253 ++ [0] else d) := by
  obtain ⟨s, hs, h⟩ := bind_ok (show (eachInt (gaEntry x) l gaInit >>= _) = _ from h)
  obtain ⟨_, _, h⟩ := bind_ok h
  cases h
  obtain ⟨s1, s2, _, h2, e⟩ := eachInt_only (f := fun s : GaP => s.q.rpHash) (fun _ _ _ _ hk h => gaEntry_rp hk h) hl hs
  have h2 : (copyIn 254 254 d Code.invalidCbor >>= fun d => pure
      { s1 with q := { s1.q with rpHash := x.sha (if d.length == 254 then d.take 253 ++ [0] else d) }, seen := (s1.seen.1, true) }) = .ok s2 := h2
  obtain ⟨d', hd, h2⟩ := bind_ok h2
  cases h2
  obtain ⟨rfl, hd⟩ := copyIn_ok hd
  refine ⟨hd, e.trans ?_⟩
  simp

/-- In a request for an assertion the relying party is the one whose identifier is given, which has at most 254 bytes.
(Missing: identifiers of 254 bytes, for which it is false: `C76_longest_id_refuted`.) -/
theorem C76_assertion_partial {l : List (Cbor × Cbor)} {d : Bytes} {q : GaReq} (h : parseGa x (.map l) = .ok q)
    (hl : Only (· = .int 1) (.text d) l) : d.length ≤ 254 ∧ (d.length ≠ 254 → q.rpHash = x.sha d) := by
  obtain ⟨h1, h2⟩ := ga_rp h hl
  exact ⟨h1, fun hd => by rw [h2, if_neg hd]⟩

theorem cpEntry_rp {key : Int} {v : Cbor} {s s' : CpS} (hk : key ≠ 10) (h : cpEntry x key v s = .ok s') : s'.q.rp = s.q.rp := by
  unfold cpEntry at h
  split at h
  · opened h
  split at h
  · opened h
  split at h
  · opened h
  split at h
  · opened h
  split at h
  · opened h
  split at h
  · opened h
  split at h
  · opened h
  split at h
  · exact absurd (by simpa using ‹(key == 10) = true›) hk
  · opened h

/-- A token is bound to the relying party whose identifier is given, which has at most 254 bytes. -/
theorem C76_token {l : List (Cbor × Cbor)} {d : Bytes} {q : CpReq} (h : parseCp x (.map l) = .ok q)
    (hl : Only (· = .int 10) (.text d) l) : d.length ≤ 254 ∧ q.rp = some (x.sha d) := by
  obtain ⟨s, hs, h⟩ := bind_ok (show (eachInt (cpEntry x) l cpInit >>= _) = _ from h)
  iterate 7 obtain ⟨_, _, h⟩ := bind_ok h
  cases h
  obtain ⟨s1, s2, _, h2, e⟩ := eachInt_only (f := fun s : CpS => s.q.rp) (fun _ _ _ _ hk h => cpEntry_rp hk h) hl hs
  have h2 : (copyIn 255 254 d Code.invalidCbor >>= fun d => poke 255 d.length >>= fun _ => pure
      { s1 with q := { s1.q with rp := some (x.sha d) } }) = .ok s2 := h2
  obtain ⟨d', hd, h2⟩ := bind_ok h2
  obtain ⟨_, _, h2⟩ := bind_ok h2
  cases h2
  obtain ⟨rfl, hd⟩ := copyIn_ok hd
  exact ⟨hd, e⟩

/-- … so an identifier of at most 253 bytes designates the same relying party when a credential is created, when it is used
and when a token is obtained. -/
theorem C76_same_party (sm2 : Sm2) {lm m lg lc : List (Cbor × Cbor)} {d : Bytes} (hd : d.length ≠ 254) {q : McReq} {g : GaReq}
    {c : CpReq} (hq : parseMc x sm2 (.map lm) = .ok q) (h1 : Only (· = .int 2) (.map m) lm) (h2 : Only (Named (str "id")) (.text d) m)
    (hg : parseGa x (.map lg) = .ok g) (h3 : Only (· = .int 1) (.text d) lg) (hc : parseCp x (.map lc) = .ok c)
    (h4 : Only (· = .int 10) (.text d) lc) : q.rpHash = g.rpHash ∧ c.rp = some q.rpHash := by
  rw [(C76_registration sm2 hq h1 h2).2, (C76_assertion_partial hg h3).2 hd, (C76_token hc h4).2]
  exact ⟨rfl, rfl⟩

/-- A credential created for an identifier of 254 bytes cannot be used with it: getAssertion hashes another identifier. -/
theorem C76_longest_id_refuted (sm2 : Sm2) {lm m lg : List (Cbor × Cbor)} {d : Bytes} (hd : d.length = 254)
    (hx : x.sha (d.take 253 ++ [0]) ≠ x.sha d) {q : McReq} {g : GaReq} (hq : parseMc x sm2 (.map lm) = .ok q)
    (h1 : Only (· = .int 2) (.map m) lm) (h2 : Only (Named (str "id")) (.text d) m)
    (hg : parseGa x (.map lg) = .ok g) (h3 : Only (· = .int 1) (.text d) lg) : g.rpHash ≠ q.rpHash := by
  rw [(C76_registration sm2 hq h1 h2).2, (ga_rp hg h3).2, if_pos hd]
  exact hx

/-! ### C77 -/

/-- The entry that set a mark. -/
theorem eachInt_seen {σ : Type} {body : Int → Cbor → σ → P σ} (f : σ → Bool) (k : Int)
    (hk : ∀ key v s s', key ≠ k → body key v s = .ok s' → f s' = f s) {l : List (Cbor × Cbor)}
    {s s' : σ} (h : eachInt body l s = .ok s') (hs : f s = false) (hs' : f s' = true) :
    ∃ v s1 s2, (.int k, v) ∈ l ∧ body k v s1 = .ok s2 := by
  induction l generalizing s with
  | nil =>
    cases h
    rw [hs] at hs'
    cases hs'
  | cons e l ih =>
    obtain ⟨key, h1, h⟩ := bind_ok h
    obtain ⟨s1, h2, h⟩ := bind_ok h
    obtain ⟨_, _, h⟩ := bind_ok h
    by_cases hkey : key = k
    · subst hkey
      refine ⟨e.2, s, s1, ?_, h2⟩
      rw [← intOf_ok h1]
      exact List.mem_cons_self ..
    · obtain ⟨v, a, b, h3, h4⟩ := ih h ((hk _ _ _ _ hkey h2).trans hs)
      exact ⟨v, a, b, List.mem_cons_of_mem _ h3, h4⟩

/-- Takes one entry apart that has another key. -/
syntax "others " ident ident : tactic
macro_rules
  | `(tactic| others $h:ident $hk:ident) => `(tactic| (opened $h:ident; all_goals exact ($hk:ident (eq_of_beq (by assumption))).elim))

set_option maxHeartbeats 2000000 in
/-- A request for a new credential that the parser accepts has a hash of the client data of 32 bytes, a relying party, a user
and a list of algorithms, of which one is supported. (Missing: that the relying party and the user have identifiers, which is
false: `C77_registration_refuted`.) -/
theorem C77_registration_partial (sm2 : Sm2) {l : List (Cbor × Cbor)} {q : McReq} (h : parseMc x sm2 (.map l) = .ok q) :
    (∃ b, (.int 1, .bytes b) ∈ l ∧ b.length = 32) ∧ (∃ m, (.int 2, .map m) ∈ l) ∧ (∃ m, (.int 3, .map m) ∈ l) ∧
    ∃ ps as a, (.int 4, .arr ps) ∈ l ∧ Describes ps as ∧ a ∈ as ∧ Supported sm2 a := by
  obtain ⟨s, hs, h⟩ := bind_ok (show (eachInt (mcEntry x sm2) l mcInit >>= _) = _ from h)
  obtain ⟨_, h1, h⟩ := bind_ok h
  have h1 : s.seen = (true, true, true, true) := by simpa using refuseIf_ok h1
  refine ⟨?_, ?_, ?_, ?_⟩
  · obtain ⟨v, s1, s2, hv, hb⟩ := eachInt_seen (fun s => s.seen.1) 1 (by
      intro key v s s' hk h
      unfold mcEntry at h
      others h hk) hs rfl (by rw [h1])
    obtain ⟨b, h2, hb⟩ := bind_ok (show (bytesOf v >>= _) = _ from hb)
    obtain ⟨b', h3, hb⟩ := bind_ok hb
    obtain ⟨_, h4, hb⟩ := bind_ok hb
    obtain ⟨rfl, _⟩ := copyIn_ok h3
    refine ⟨b', by rw [← bytesOf_ok h2]; exact hv, by simpa using refuseIf_ok h4⟩
  · obtain ⟨v, s1, s2, hv, hb⟩ := eachInt_seen (fun s => s.seen.2.1) 2 (by
      intro key v s s' hk h
      unfold mcEntry at h
      others h hk) hs rfl (by rw [h1])
    obtain ⟨_, h2, _⟩ := bind_ok (show (parseRp x v _ >>= _) = _ from hb)
    obtain ⟨m, h2, _⟩ := bind_ok h2
    exact ⟨m, by rw [← entriesOf_ok h2]; exact hv⟩
  · obtain ⟨v, s1, s2, hv, hb⟩ := eachInt_seen (fun s => s.seen.2.2.1) 3 (by
      intro key v s s' hk h
      unfold mcEntry at h
      others h hk) hs rfl (by rw [h1])
    obtain ⟨_, h2, _⟩ := bind_ok (show (parseUser v _ >>= _) = _ from hb)
    obtain ⟨m, h2, _⟩ := bind_ok h2
    exact ⟨m, by rw [← entriesOf_ok h2]; exact hv⟩
  · obtain ⟨v, s1, s2, hv, hb⟩ := eachInt_seen (fun s => s.seen.2.2.2) 4 (by
      intro key v s s' hk h
      unfold mcEntry at h
      others h hk) hs rfl (by rw [h1])
    obtain ⟨a, h2, _⟩ := bind_ok (show (parseParams sm2 v >>= _) = _ from hb)
    obtain ⟨ps, h3, _⟩ := bind_ok h2
    rw [elementsOf_ok h3] at h2 hv
    obtain ⟨pre, a', post, hd, _, ha, _⟩ := (C66_first_supported sm2 ps a).mp h2
    exact ⟨ps, _, a', hv, hd, by simp, ha⟩

/-- A request for an assertion that the parser accepts has an identifier of a relying party and a hash of the client data of
32 bytes. -/
theorem C77_assertion {l : List (Cbor × Cbor)} {q : GaReq} (h : parseGa x (.map l) = .ok q) :
    (∃ d, (.int 1, .text d) ∈ l) ∧ ∃ b, (.int 2, .bytes b) ∈ l ∧ b.length = 32 := by
  have ext : ∀ {v : Cbor} {s s' : GaP}, parseGaExt v s = .ok s' → s'.seen = s.seen := by
    intro v s s' h
    obtain ⟨l, _, h⟩ := bind_ok h
    refine eachText_all (f := fun s : GaP => s.seen) ?_ h
    intro key v s s' h
    opened h
  obtain ⟨s, hs, h⟩ := bind_ok (show (eachInt (gaEntry x) l gaInit >>= _) = _ from h)
  obtain ⟨_, h1, h⟩ := bind_ok h
  have h1 : s.seen = (true, true) := by simpa using refuseIf_ok h1
  refine ⟨?_, ?_⟩
  · obtain ⟨v, s1, s2, hv, hb⟩ := eachInt_seen (fun s => s.seen.2) 1 (by
      intro key v s s' hk h
      unfold gaEntry at h
      by_cases h4 : key = 4
      · subst h4
        rw [ext (show parseGaExt v s = .ok s' from h)]
      opened h
      all_goals first | exact (hk (eq_of_beq (by assumption))).elim | exact (h4 (eq_of_beq (by assumption))).elim) hs rfl (by rw [h1])
    obtain ⟨d, h2, _⟩ := bind_ok (show (textOf v >>= _) = _ from hb)
    exact ⟨d, by rw [← textOf_ok h2]; exact hv⟩
  · obtain ⟨v, s1, s2, hv, hb⟩ := eachInt_seen (fun s => s.seen.1) 2 (by
      intro key v s s' hk h
      unfold gaEntry at h
      by_cases h4 : key = 4
      · subst h4
        rw [ext (show parseGaExt v s = .ok s' from h)]
      opened h
      all_goals first | exact (hk (eq_of_beq (by assumption))).elim | exact (h4 (eq_of_beq (by assumption))).elim) hs rfl (by rw [h1])
    obtain ⟨b, h2, hb⟩ := bind_ok (show (bytesOf v >>= _) = _ from hb)
    obtain ⟨b', h3, hb⟩ := bind_ok hb
    obtain ⟨_, h4, hb⟩ := bind_ok hb
    obtain ⟨rfl, _⟩ := copyIn_ok h3
    refine ⟨b', by rw [← bytesOf_ok h2]; exact hv, by simpa using refuseIf_ok h4⟩

/-- There is an entry with this number. -/
def Has (k : Int) (l : List (Cbor × Cbor)) : Prop := ∃ v, (.int k, v) ∈ l

set_option maxHeartbeats 2000000 in
theorem cp_has {l : List (Cbor × Cbor)} {s : CpS} (hs : eachInt (cpEntry x) l cpInit = .ok s) :
    (s.seenProto = true → Has 1 l) ∧ (s.seenSub = true → Has 2 l) ∧ (s.seenKey = true → Has 3 l) ∧ (s.seenAuth = true → Has 4 l) ∧
    (s.seenNew = true → Has 5 l) ∧ (s.seenHash = true → Has 6 l) ∧ (s.seenPerms = true → Has 9 l) := by
  have go : ∀ (f : CpS → Bool) (k : Int), (∀ key v s s', key ≠ k → cpEntry x key v s = .ok s' → f s' = f s) → f cpInit = false →
      f s = true → Has k l := by
    intro f k hk h1 h2
    obtain ⟨v, _, _, h, _⟩ := eachInt_seen f k hk hs h1 h2
    exact ⟨v, h⟩
  refine ⟨go (·.seenProto) 1 ?_ rfl, go (·.seenSub) 2 ?_ rfl, go (·.seenKey) 3 ?_ rfl, go (·.seenAuth) 4 ?_ rfl,
    go (·.seenNew) 5 ?_ rfl, go (·.seenHash) 6 ?_ rfl, go (·.seenPerms) 9 ?_ rfl⟩ <;>
  · intro key v s s' hk h
    unfold cpEntry at h
    others h hk

/-- A clientPIN request that the parser accepts has the parameters of its subcommand: getKeyAgreement (2) a protocol,
setPIN (3) a protocol, a key, an authentication and a new PIN, changePIN (4) also the hash of the old one, getPinToken (5)
a protocol, a key and the hash of the PIN but neither permissions nor a relying party, and
getPinUvAuthTokenUsingPinWithPermissions (9) also permissions. -/
theorem C77_client_pin {l : List (Cbor × Cbor)} {q : CpReq} (h : parseCp x (.map l) = .ok q) :
    Has 2 l ∧ (q.sub = 2 → Has 1 l) ∧ (q.sub = 3 → Has 1 l ∧ Has 3 l ∧ Has 4 l ∧ Has 5 l) ∧
    (q.sub = 4 → Has 1 l ∧ Has 3 l ∧ Has 4 l ∧ Has 5 l ∧ Has 6 l) ∧
    (q.sub = 5 → Has 1 l ∧ Has 3 l ∧ Has 6 l) ∧
    (q.sub = 9 → Has 1 l ∧ Has 3 l ∧ Has 6 l ∧ Has 9 l) := by
  obtain ⟨s, hs, h⟩ := bind_ok (show (eachInt (cpEntry x) l cpInit >>= _) = _ from h)
  obtain ⟨_, a1, h⟩ := bind_ok h
  obtain ⟨_, a2, h⟩ := bind_ok h
  obtain ⟨_, a3, h⟩ := bind_ok h
  obtain ⟨_, a4, h⟩ := bind_ok h
  obtain ⟨_, a5, h⟩ := bind_ok h
  obtain ⟨_, a6, h⟩ := bind_ok h
  obtain ⟨_, a7, h⟩ := bind_ok h
  cases h
  replace a1 := refuseIf_ok a1
  replace a2 := refuseIf_ok a2
  replace a3 := refuseIf_ok a3
  replace a4 := refuseIf_ok a4
  replace a5 := refuseIf_ok a5
  replace a7 := refuseIf_ok a7
  simp only [Bool.not_eq_false', Bool.and_eq_false_imp, Bool.and_eq_true, beq_iff_eq] at a1 a2 a3 a4 a5 a7
  obtain ⟨b1, b2, b3, b4, b5, b6, b9⟩ := cp_has hs
  refine ⟨b2 a1, fun e => b1 (a2 e), fun e => ?_, fun e => ?_, fun e => ?_, fun e => ?_⟩
  · obtain ⟨⟨⟨c1, c2⟩, c3⟩, c4⟩ := a3 e
    exact ⟨b1 c1, b3 c2, b4 c4, b5 c3⟩
  · obtain ⟨⟨⟨⟨c1, c2⟩, c3⟩, c4⟩, c5⟩ := a4 e
    exact ⟨b1 c1, b3 c2, b4 c5, b5 c4, b6 c3⟩
  · obtain ⟨⟨c1, c2⟩, c3⟩ := a5 e
    exact ⟨b1 c1, b3 c2, b6 c3⟩
  · obtain ⟨⟨⟨c1, c2⟩, c3⟩, c4⟩ := a7 e
    exact ⟨b1 c1, b3 c2, b6 c3, b9 c4⟩

/-- A request for a new credential without identifiers. -/
def nameless : Cbor := .map
  [(.int 1, .bytes (zeros 32)), (.int 2, .map []), (.int 3, .map []),
   (.int 4, .arr [.map [(.text (str "alg"), .int (-7)), (.text (str "type"), .text (str "public-key"))]])]

/-- … is accepted: the relying party is the one whose hash is zero. -/
theorem C77_registration_refuted (sm2 : Sm2) : ∃ q, parseMc x sm2 nameless = .ok q ∧ q.rpHash = zeros 32 ∧ q.user.id = [] := by
  have h : parseParams sm2 (.arr [.map [(.text (str "alg"), .int (-7)), (.text (str "type"), .text (str "public-key"))]]) = .ok ES256 := by
    rw [C66_first_supported]
    refine ⟨[], -7, [], .cons ⟨⟨_, rfl, rfl, rfl⟩, by decide, by decide⟩ .nil, nofun, Or.inl rfl, by decide⟩
  refine ⟨{ mcInit.q with alg := ES256 }, ?_, rfl, rfl⟩
  show (((parseParams sm2 (.arr [.map [(.text (str "alg"), .int (-7)), (.text (str "type"), .text (str "public-key"))]]) >>= fun a =>
      (pure { q := { mcInit.q with alg := a }, seen := (true, true, true, true), authBuf := zeros 32 } : P McS)) >>= fun s =>
      advance (.arr [.map [(.text (str "alg"), .int (-7)), (.text (str "type"), .text (str "public-key"))]]) >>= fun _ => pure s) >>= fun s =>
      refuseIf (s.seen != (true, true, true, true)) Code.missingParameter >>= fun _ => pure s.q) = _
  rw [h]
  rfl

/-- A key without the second coordinate: the curve is given twice. -/
def halfKey : Cbor := .map [(.int 1, .int 2), (.int (-1), .int 1), (.int (-1), .int 1), (.int (-2), .bytes (List.replicate 32 7))]

/-- … is accepted, whatever is in the buffer for the coordinate. -/
theorem C77_key_agreement_refuted (key : Bytes) : parseCoseKey halfKey key = .ok (List.replicate 32 7 ++ key.drop 32) := rfl

/-! ### Examples -/

section
open Toy

/-- A description of a public key. -/
def paramOf (a : Int) : Cbor := .map [(.text (str "alg"), .int a), (.text (str "type"), .text (str "public-key"))]

/-- No SM2. -/
def sm2Off : Sm2 := ⟨false, 0⟩

/-- Requests that the parsers accept, with the identifier of a relying party. -/
def mcOf (d : Bytes) : List (Cbor × Cbor) :=
  [(.int 1, .bytes (zeros 32)), (.int 2, .map [(.text (str "name"), .text (str "N")), (.text (str "id"), .text d)]),
   (.int 3, .map [(.text (str "id"), .bytes [1, 2])]), (.int 4, .arr [paramOf (-257), paramOf (-8), paramOf (-7)])]
def gaOf (d : Bytes) : List (Cbor × Cbor) := [(.int 1, .text d), (.int 2, .bytes (zeros 32))]
def cpOf (d : Bytes) : List (Cbor × Cbor) :=
  [(.int 1, .int 1), (.int 2, .int 9), (.int 3, halfKey), (.int 6, .bytes (zeros 16)), (.int 9, .int 3), (.int 10, .text d)]

example : (parseMc Toy.ext sm2Off (.map (mcOf (str "example.org")))).toOption.map (fun q => (q.rpHash, q.alg, q.user.id)) =
    some (Toy.ext.sha (str "example.org"), EDDSA, [1, 2]) := by decide +kernel
example : (parseGa Toy.ext (.map (gaOf (str "example.org")))).toOption.map (·.rpHash) = some (Toy.ext.sha (str "example.org")) := by
  decide +kernel
example : (parseCp Toy.ext (.map (cpOf (str "example.org")))).toOption.map (fun q => (q.rp, q.sub, q.proto)) =
    some (some (Toy.ext.sha (str "example.org")), 9, 1) := by decide +kernel

theorem Named.not_name : ¬ Named (str "id") (.text (str "name")) := by
  rintro ⟨t, e, h⟩
  cases e
  exact absurd h (by decide)

example (d : Bytes) : Only (· = .int 2) (.map [(.text (str "name"), .text (str "N")), (.text (str "id"), .text d)]) (mcOf d) :=
  ⟨[_], _, [_, _], rfl, rfl, by simp, by simp⟩
example (d : Bytes) : Only (Named (str "id")) (.text d) [(.text (str "name"), .text (str "N")), (.text (str "id"), .text d)] :=
  ⟨[_], _, [], rfl, ⟨_, rfl, by decide⟩, by simpa using Named.not_name, nofun⟩
example (d : Bytes) : Only (· = .int 1) (.text d) (gaOf d) := ⟨[], _, [_], rfl, rfl, nofun, by simp⟩
example (d : Bytes) : Only (· = .int 10) (.text d) (cpOf d) := ⟨[_, _, _, _, _], _, [], rfl, rfl, by simp, nofun⟩

/-- A hash that depends on all bytes. -/
def extSum : Ext := { Toy.ext with sha := fun b => [Toy.sum b] }

/-- Identifiers of 254 bytes are accepted, with different hashes; longer ones are not. -/
example : (parseMc extSum sm2Off (.map (mcOf (List.replicate 254 65)))).toOption.map (·.rpHash) =
      some (extSum.sha (List.replicate 254 65)) ∧
    (parseGa extSum (.map (gaOf (List.replicate 254 65)))).toOption.map (·.rpHash) =
      some (extSum.sha (List.replicate 253 65 ++ [0])) ∧
    extSum.sha (List.replicate 253 65 ++ [0]) ≠ extSum.sha (List.replicate 254 65) ∧
    (parseMc extSum sm2Off (.map (mcOf (List.replicate 255 65)))).toOption.isNone ∧
    (parseGa extSum (.map (gaOf (List.replicate 255 65)))).toOption.isNone := by decide +kernel

/-- The order of a clientPIN request that meets the hypotheses of `C63_client_pin_partial`, and one that does not. -/
example : (parseCp Toy.ext (.map [(.int 1, .int 2), (.int 2, .int 3), (.int 3, halfKey), (.int 5, .bytes (zeros 80)),
      (.int 4, .bytes (zeros 32))])).toOption.isSome := by decide +kernel
example (u : Ub) : parseCp x (.map [(.int 1, .int 2), (.int 2, .int 3), (.int 5, .bytes (zeros 1000))]) ≠ .error (.ub u) :=
  C63_client_pin_partial _ (by
    intro pre post b h _
    rcases pre with _ | ⟨e, pre⟩
    · cases h
    · injection h with h _
      subst h
      exact ⟨_, List.mem_cons_self ..⟩) (by
    intro pre post b h _
    rcases pre with _ | ⟨e, pre⟩
    · cases h
    · injection h with h _
      subst h
      exact ⟨_, List.mem_cons_self ..⟩) u

/-- A list whose last element is not a public key is refused, although one before is supported. -/
example : (parseParams sm2Off (.arr [paramOf (-257), paramOf (-7), paramOf (-8)])).toOption = some ES256 ∧
    (parseParams sm2Off (.arr [paramOf (-7), .map []])).toOption = none ∧ (parseParams sm2Off (.arr [paramOf (-257)])).toOption = none := by
  decide +kernel

end

end Verif.Ctap.Parse
