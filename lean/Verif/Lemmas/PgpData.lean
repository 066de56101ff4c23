import Verif.Base.Moves
import Verif.Lemmas.PgpStep
import Verif.Spec.PgpData
/-
The data objects of the OpenPGP applet in flash, and what each command does to them.
-/
set_option linter.unusedSimpArgs false
namespace Verif.Pgp
open Cmd Verif.Spec.Pgp Verif.Spec.PgpData Verif.KeyFile

variable {A : Fault → Prop} {x : Ext} {i : In} {f f' : Flash} {r r' : Ram}

/-- The algorithm attributes of a key as they are shown. -/
def attrBytes (m : Meta) : Bytes :=
  if m.type.isWei then (if m.usage = 1 then 0x13 else 0x12) :: (algoAttr m.type).drop 1 else algoAttr m.type

/-- The value of an object in flash, as it is to be read. -/
def val : Obj → Flash → Option Bytes
  | .name, f => f.data.bind (·.name)
  | .login, f => f.data.bind (·.login)
  | .lang, f => f.data.bind (·.lang)
  | .sex, f => f.data.bind (·.sex)
  | .url, f => f.data.map (·.url)
  | .pw, f => (f.data.bind (·.pwStatus)).map ([·])
  | .alg k, f => (metaOf f k).map attrBytes
  | .fp k, f => (f.keys k).bind (·.fp)
  | .date k, f => (f.keys k).bind (·.date)
  | .uif k, f => (metaOf f k).map fun m => [uifOf m.touch, 0x20]
  | .ca .sig, f => f.data.bind (·.ca1)
  | .ca .dec, f => f.data.bind (·.ca2)
  | .ca .aut, f => f.data.bind (·.ca3)

/-- What a key may be and is for. -/
structure MetaFits (k : K) (m : Meta) : Prop where
  usage : m.usage = if k = .dec then 2 else 1
  type : m.type ≠ .tdea ∧ m.type ≠ .none ∧ m.type ≠ (if k = .dec then .ed25519 else .x25519)

/-- The sizes of the objects. -/
structure DataFits (d : Data) : Prop where
  name : ∀ v, d.name = some v → v.length ≤ 39
  login : ∀ v, d.login = some v → v.length ≤ 63
  lang : ∀ v, d.lang = some v → v.length ≤ 8
  sex : ∀ v, d.sex = some v → v.length ≤ 1
  url : d.url.length ≤ 255
  ca1 : ∀ v, d.ca1 = some v → v.length = 20
  ca2 : ∀ v, d.ca2 = some v → v.length = 20
  ca3 : ∀ v, d.ca3 = some v → v.length = 20

structure KeyFits (k : K) (p : PKey) : Prop where
  fp : ∀ v, p.fp = some v → v.length = 20
  date : ∀ v, p.date = some v → v.length = 4
  info : ∀ m, p.info = some m → MetaFits k m

/-- Everything stored has its size. -/
structure Fits (f : Flash) : Prop where
  data : ∀ d, f.data = some d → DataFits d
  keys : ∀ k p, f.keys k = some p → KeyFits k p
  certs : ∀ k c, f.certs k = some c → c.length ≤ 0x480

theorem Fits.setData {d : Data} (h : Fits f) (hd : DataFits d) : Fits { f with data := some d } :=
  ⟨fun d' e => by injection e with e; subst e; exact hd, h.keys, h.certs⟩

theorem Fits.setKey {k : K} {p : PKey} (h : Fits f) (hp : KeyFits k p) : Fits (f.setKey k p) := by
  refine ⟨h.data, fun k' p' e => ?_, h.certs⟩
  simp only [setKey_keys] at e
  by_cases hk : k' = k
  · subst hk; rw [if_pos rfl] at e; injection e with e; subst e; exact hp
  · rw [if_neg hk] at e; exact h.keys _ _ e

theorem Fits.setCert {k : K} {c : Bytes} (h : Fits f) (hc : c.length ≤ 0x480) : Fits (f.setCert k c) := by
  refine ⟨h.data, h.keys, fun k' c' e => ?_⟩
  simp only [Flash.setCert] at e
  by_cases hk : k' = k
  · subst hk; rw [if_pos rfl] at e; injection e with e; subst e; exact hc
  · rw [if_neg hk] at e; exact h.certs _ _ e

/-- The objects are as they were. -/
def SameObjs (f f' : Flash) : Prop := ∀ o, val o f' = val o f

/-! ### PUT DATA -/

/-- What PUT DATA does to the objects; `ok` if it is answered 9000. -/
structure PutRes (i : In) (f : Flash) (ok : Prop) (f' : Flash) : Prop where
  other : ∀ o : Obj, tagOf i.c ≠ o.tag → val o f' = val o f
  fits : Fits f → Fits f'
  no : ¬ ok → SameObjs f f'
  yes : ok → Fits f → ∀ o : Obj, tagOf i.c = o.tag → (o = .uif .aut → i.c.data ≠ []) →
    ∃ v, val o f' = some v ∧ o.Reads i.c.data v
  certs : ∀ k, f'.certs k ≠ f.certs k → tagOf i.c = 0x7F21

theorem PutRes.nop {ok : Prop} (h : ¬ ok) : PutRes i f ok f :=
  ⟨fun _ _ => rfl, id, fun _ _ => rfl, fun h' => absurd h' h, fun _ h => absurd rfl h⟩

/-- PUT DATA changes nothing else. -/
abbrev PutsObj (A : Fault → Prop) (i : In) (m : M Reply) (f : Flash) (r : Ram) : Prop :=
  wp A m (fun a f' _ => PutRes i f (∃ d, a = .resp d 0x9000) f') (fun a f' _ => PutRes i f (∃ d, a = .resp d 0x9000) f')
    (fun f' _ => PutRes i f False f') f r

theorem sw_ne {a : Nat} (h : a ≠ 0x9000) : ¬ ∃ d, (.sw a : Reply) = .resp d 0x9000 := fun ⟨_, e⟩ => by
  injection e with _ e; exact h e

theorem ub_ne {u : Ub} : ¬ ∃ d, (.ub u : Reply) = .resp d 0x9000 := fun ⟨_, e⟩ => by cases e

/-- Closes exits without effect. -/
macro "nops" : tactic => `(tactic| first
  | exact PutRes.nop (sw_ne (by decide))
  | exact PutRes.nop ub_ne
  | exact PutRes.nop (fun h => h))

theorem tag_inj : ∀ o o' : Obj, o'.tag = o.tag → o' = o := by
  intro o o' h
  rcases o with _ | _ | _ | _ | _ | _ | k | k | k | k | k <;>
  rcases o' with _ | _ | _ | _ | _ | _ | k' | k' | k' | k' | k' <;>
  first
    | rfl
    | (exfalso; revert h; decide)
    | (cases k <;> first | (exfalso; revert h; decide) | (cases k' <;> first | rfl | (exfalso; revert h; decide)))
    | (cases k' <;> first | (exfalso; revert h; decide))

/-- An object of the file `pgp-data`. -/
theorem putSet_obj (lo hi : Nat) (g : Data → Data) (o : Obj) (ht : tagOf i.c = o.tag)
    (ho : ∀ (d : Data) (f : Flash), f.data = some d → ∀ o', o' ≠ o → val o' { f with data := some (g d) } = val o' f)
    (hv : ∀ (d : Data) (f : Flash), f.data = some d → val o { f with data := some (g d) } = some i.c.data)
    (hr : o.Reads i.c.data i.c.data)
    (hf : ∀ d, lo ≤ i.c.lc → i.c.lc ≤ hi → DataFits d → DataFits (g d)) :
    PutsObj A i (putAttrOf i.c lo hi (setData g)) f r := by
  unfold putAttrOf PutsObj
  wps
  · nops
  next hl =>
  simp only [Bool.or_eq_true, decide_eq_true_eq, not_or, Nat.not_lt] at hl
  apply setData_wp
  · intro d hd
    refine wp_pure ⟨fun o' h => ho d f hd o' ?_, fun h => h.setData (hf d hl.1 hl.2 (h.data d hd)), fun h => absurd ⟨[], rfl⟩ h, ?_,
      fun _ h => absurd rfl h⟩
    · rintro rfl; exact h ht
    · intro _ _ o' h _
      have e := tag_inj o o' (by rw [← h, ht])
      subst e
      exact ⟨_, hv d f hd, hr⟩
  · intro _; nops
  · intro _; nops
  · intro _; nops

/-- An attribute of a key file. -/
theorem putKeyAttr_obj (lo hi : Nat) (k : K) (g : PKey → PKey) (o : Obj) (ht : tagOf i.c = o.tag)
   
    (ho : ∀ (p : PKey) (f : Flash), f.keys k = some p → ∀ o', o' ≠ o → val o' (f.setKey k (g p)) = val o' f)
    (hv : ∀ (p : PKey) (f : Flash), f.keys k = some p → val o (f.setKey k (g p)) = some i.c.data)
    (hr : o.Reads i.c.data i.c.data)
    (hf : ∀ p, lo ≤ i.c.lc → i.c.lc ≤ hi → KeyFits k p → KeyFits k (g p)) :
    PutsObj A i (putAttrOf i.c lo hi (setKey k g)) f r := by
  unfold putAttrOf PutsObj
  wps
  · nops
  next hl =>
  simp only [Bool.or_eq_true, decide_eq_true_eq, not_or, Nat.not_lt] at hl
  apply setKey_wp
  · intro p hp
    refine wp_pure ⟨fun o' h => ho p f hp o' ?_, fun h => h.setKey (hf p hl.1 hl.2 (h.keys k p hp)), fun h => absurd ⟨[], rfl⟩ h, ?_,
      fun _ h => absurd rfl h⟩
    · rintro rfl; exact h ht
    · intro _ _ o' h _
      have e := tag_inj o o' (by rw [← h, ht])
      subst e
      exact ⟨_, hv p f hp, hr⟩
  · intro _; nops
  · intro _; nops
  · intro _; nops

theorem val_setKey_other {k : K} {p q : PKey} (hp : f.keys k = some p) {o : Obj}
    (ha : o = .alg k ∨ o = .uif k → q.info = p.info) (h1 : o = .fp k → q.fp = p.fp) (h2 : o = .date k → q.date = p.date) :
    val o (f.setKey k q) = val o f := by
  cases o with
  | alg k' =>
    simp only [val, metaOf, setKey_keys]
    by_cases e : k' = k
    · subst e; simp [hp, ha (.inl rfl)]
    · simp [e]
  | uif k' =>
    simp only [val, metaOf, setKey_keys]
    by_cases e : k' = k
    · subst e; simp [hp, ha (.inr rfl)]
    · simp [e]
  | fp k' =>
    simp only [val, setKey_keys]
    by_cases e : k' = k
    · subst e; simp [hp, h1 rfl]
    · simp [e]
  | date k' =>
    simp only [val, setKey_keys]
    by_cases e : k' = k
    · subst e; simp [hp, h2 rfl]
    · simp [e]
  | ca k' => cases k' <;> rfl
  | _ => rfl

theorem val_data_other {d d' : Data} (hd : f.data = some d) {o : Obj}
    (h : match o with
      | .name => d'.name = d.name
      | .login => d'.login = d.login
      | .lang => d'.lang = d.lang
      | .sex => d'.sex = d.sex
      | .url => d'.url = d.url
      | .pw => d'.pwStatus = d.pwStatus
      | .ca .sig => d'.ca1 = d.ca1
      | .ca .dec => d'.ca2 = d.ca2
      | .ca .aut => d'.ca3 = d.ca3
      | _ => True) : val o { f with data := some d' } = val o f := by
  rcases o with _ | _ | _ | _ | _ | _ | k | k | k | k | k
  all_goals first
    | (simp only [val, hd, Option.bind_some, Option.map_some] at h ⊢; rw [h]; done)
    | rfl
    | (cases k <;> (simp only [val, hd, Option.bind_some] at h ⊢; exact h))

theorem putUrl_obj (ht : tagOf i.c = 0x5F50) : PutsObj A i (putAttrOf i.c 0 255
    (Cmd.wrOr (fun f => some { f with data := some { (f.data.getD Data.empty) with url := i.c.data } }) ioErr)) f r := by
  unfold putAttrOf PutsObj
  wps
  all_goals try nops
  next hl _ h =>
  simp only [Bool.or_eq_true, decide_eq_true_eq, not_or, Nat.not_lt] at hl
  simp only [Option.some.injEq] at h
  subst h
  refine ⟨fun o ho => ?_, fun hf => hf.setData ?_, fun h => absurd ⟨[], rfl⟩ h, ?_, fun _ h => absurd rfl h⟩
  · cases hd : f.data with
    | some d =>
      apply val_data_other hd
      rcases o with _ | _ | _ | _ | _ | _ | k | k | k | k | k
      all_goals first | rfl | trivial | (exact absurd ht ho) | (cases k <;> rfl)
    | none =>
      rcases o with _ | _ | _ | _ | _ | _ | k | k | k | k | k
      all_goals first
        | (simp [val, hd, Data.empty]; done)
        | (exact absurd ht ho)
        | rfl
        | (cases k <;> simp [val, hd, Data.empty])
  · have hl := hl.2
    cases hd : f.data with
    | some d => 
      obtain ⟨a, b, c, d, e, g, h, i⟩ := hf.data d hd
      exact ⟨a, b, c, d, hl, g, h, i⟩
    | none => refine ⟨?_, ?_, ?_, ?_, hl, ?_, ?_, ?_⟩ <;> intro v h <;> cases h
  · intro _ _ o h _
    have e := tag_inj .url o (by rw [← h, ht]; rfl)
    subst e
    exact ⟨_, rfl, rfl⟩

theorem putCert_obj (ht : tagOf i.c = 0x7F21) : PutsObj A i (putCert i.c) f r := by
  have no : ∀ o : Obj, o.tag ≠ 0x7F21 := by
    intro o
    rcases o with _ | _ | _ | _ | _ | _ | k | k | k | k | k
    all_goals first | decide | (cases k <;> decide)
  unfold putCert PutsObj
  wps
  all_goals try nops
  next hl _ _ _ _ h =>
  simp only [Option.some.injEq] at h
  subst h
  refine ⟨fun o ho => ?_, fun hf => hf.setCert (Nat.le_of_not_lt hl), fun h => absurd ⟨[], rfl⟩ h, fun _ _ o h => absurd (h.symm.trans ht) (no o),
    fun _ _ => ht⟩
  rcases o with _ | _ | _ | _ | _ | _ | k | k | k | k | k
  all_goals first | rfl | (cases k <;> rfl)

theorem putPwStatus_obj (ht : tagOf i.c = 0xC4) : PutsObj A i (putPwStatus i.c) f r := by
  unfold putPwStatus PutsObj
  wps
  all_goals try nops
  next b hb _ =>
  apply setData_wp
  · intro d hd
    refine wp_pure ⟨fun o ho => val_data_other hd ?_, fun h => h.setData ?_, fun h => absurd ⟨[], rfl⟩ h, ?_, fun _ h => absurd rfl h⟩
    · rcases o with _ | _ | _ | _ | _ | _ | k | k | k | k | k
      all_goals first | rfl | trivial | (exact absurd ht ho) | (cases k <;> rfl)
    · obtain ⟨a, b, c, d, e, g, h, i⟩ := h.data d hd
      exact ⟨a, b, c, d, e, g, h, i⟩
    · intro _ _ o h _
      have e := tag_inj .pw o (by rw [← h, ht]; rfl)
      subst e
      exact ⟨_, rfl, hb.symm⟩
  · intro _; nops
  · intro _; nops
  · intro _; nops

theorem putCache_obj (ht : tagOf i.c = 0x0102) : PutsObj A i (putCache i.c) f r := by
  have no : ∀ o : Obj, o.tag ≠ 0x0102 := by
    intro o
    rcases o with _ | _ | _ | _ | _ | _ | k | k | k | k | k
    all_goals first | decide | (cases k <;> decide)
  unfold putCache PutsObj
  split
  rotate_left
  · exact wp_throw (by nops)
  apply wp_bind; apply wp_mod; apply wp_bind
  apply setData_wp
  · intro d hd
    refine wp_pure ⟨fun o ho => val_data_other hd ?_, fun h => h.setData ?_, fun h => absurd ⟨[], rfl⟩ h,
      fun _ _ o h => absurd (h.symm.trans ht) (no o), fun _ h => absurd rfl h⟩
    · rcases o with _ | _ | _ | _ | _ | _ | k | k | k | k | k
      all_goals first | rfl | trivial | (cases k <;> rfl)
    · obtain ⟨a, b, c, d, e, g, h, i⟩ := h.data d hd
      exact ⟨a, b, c, d, e, g, h, i⟩
  · intro _; nops
  · intro _; nops
  · intro _; nops

theorem val_pin {w : Which} {p : Pin.Flash} (o : Obj) : val o ((partF w).set p f) = val o f := by
  rcases o with _ | _ | _ | _ | _ | _ | k | k | k | k | k
  all_goals first | (cases w <;> rfl) | (cases w <;> cases k <;> rfl)

theorem fits_pin {w : Which} {p : Pin.Flash} (h : Fits f) : Fits ((partF w).set p f) := by
  cases w <;> exact ⟨h.data, h.keys, h.certs⟩

theorem putRc_obj (ht : tagOf i.c = 0xD3) : PutsObj A i (putRc x i.c) f r := by
  have no : ∀ o : Obj, o.tag ≠ 0xD3 := by
    intro o
    rcases o with _ | _ | _ | _ | _ | _ | k | k | k | k | k
    all_goals first | decide | (cases k <;> decide)
  have any : ∀ ok p, PutRes i f ok ((partF .rc).set p f) := fun ok p =>
    ⟨fun o _ => val_pin o, fits_pin, fun _ o => val_pin o, fun _ _ o h => absurd (h.symm.trans ht) (no o), fun _ h => absurd rfl h⟩
  unfold putRc PutsObj
  wps
  all_goals try nops
  · apply wp_onPin (Pin.clear_wp (A := A))
    · intro rc p q _
      wps <;> exact any _ _
    · intro p q _; exact any _ _
  · apply wp_onPin (Pin.update_wp (A := A))
    · intro rc p q _
      wps <;> exact any _ _
    · intro p q _; exact any _ _

theorem uif_touch {b : Byte} (h : ¬ b > 2) : uifOf (if b == 0 then 0 else if b == 1 then 3 else 4) = b := by
  have h' : b.toNat ≤ 2 := by
    have := UInt8.le_iff_toNat_le.1 (UInt8.not_lt.1 h)
    simpa using this
  have : b = 0 ∨ b = 1 ∨ b = 2 := by
    rcases Nat.lt_or_ge b.toNat 1 with h | h
    · exact .inl (UInt8.toNat_inj.1 (by simp; omega))
    rcases Nat.lt_or_ge b.toNat 2 with h1 | h1
    · exact .inr (.inl (UInt8.toNat_inj.1 (by simp; omega)))
    · exact .inr (.inr (UInt8.toNat_inj.1 (by simp; omega)))
  rcases this with rfl | rfl | rfl <;> decide

theorem putUif_obj (k : K) (ht : tagOf i.c = (Obj.uif k).tag) : PutsObj A i (putUif i k) f r := by
  unfold putUif readMeta PutsObj
  wps
  all_goals try nops
  next hl m hm h4 =>
  apply wp_mem
  · intro b hb
    wps
    all_goals try nops
    next h2 =>
    apply setKey_wp
    · intro p hp
      simp only [hp, Option.bind_some] at hm
      refine wp_pure ⟨fun o ho => ?_, fun h => h.setKey ?_, fun h => absurd ⟨[], rfl⟩ h, ?_, fun _ h => absurd rfl h⟩
      · by_cases hu : o = .alg k
        · subst hu
          simp only [val, metaOf, setKey_keys, hp, hm, if_true, Option.bind_some, Option.map_some]
          rfl
        · exact val_setKey_other hp (by rintro (h | h); exact absurd h hu; subst h; exact absurd ht ho) (fun _ => rfl) (fun _ => rfl)
      · obtain ⟨a, b, c⟩ := h.keys k p hp
        refine ⟨a, b, fun m' e => ?_⟩
        injection e with e; subst e
        exact ⟨(c m hm).1, (c m hm).2⟩
      · intro _ _ o h hne
        have e := tag_inj (.uif k) o (by rw [← h, ht])
        subst e
        refine ⟨[b, 0x20], ?_, b, ?_, rfl⟩
        · simp only [val, metaOf, setKey_keys, if_true, Option.bind_some, Option.map_some, uif_touch h2]
        · rw [rd_eq_ok] at hb
          have hd : i.c.data ≠ [] := by
            cases k with
            | aut => exact hne rfl
            | _ =>
              intro e
              simp [Apdu.Capdu.lc, e] at hl
          cases hc : i.c.data with
          | nil => exact absurd hc hd
          | cons a t => rw [hc] at hb; simpa using hb
    · intro _; nops
    · intro _; nops
    · intro _; nops
  · intro u hu; nops

/-- The attributes that the card takes are those of a type that the key may have. -/
theorem attr_shown {k : K} {m : Meta} {d : Bytes} {t : KTy} (ht : attrType d = some t) (hm : MetaFits k m) (e : t = m.type) :
    attrBytes m ∈ offered k ∧ ((attrBytes m).drop 1 = d.drop 1 ∨ d.head? = some 1 ∧ (attrBytes m).take 3 = d.take 3) := by
  subst e
  obtain ⟨hu, h1, h2, h3⟩ := hm
  have hmem : attrBytes m ∈ offered k := by
    unfold attrBytes offered
    rw [hu]
    cases k <;> cases ht' : m.type <;> simp_all <;> decide
  refine ⟨hmem, ?_⟩
  have hdrop : (attrBytes m).drop 1 = (algoAttr m.type).drop 1 := by
    unfold attrBytes
    split <;> rfl
  rw [hdrop]
  unfold attrType at ht
  split at ht
  · next h => 
    refine .inr ⟨h, ?_⟩
    split at ht
    · split at ht
      · next b rest _ =>
        simp only [List.head?_cons, Option.some.injEq] at h
        subst h
        unfold attrBytes
        split at ht
        · next hb => injection ht with ht; subst hb; rw [← ht]; rfl
        split at ht
        · next hb => injection ht with ht; subst hb; rw [← ht]; rfl
        split at ht
        · next hb => injection ht with ht; subst hb; rw [← ht]; rfl
        · cases ht
      · cases ht
    · cases ht
  · have := List.find?_some ht
    simp only [decide_eq_true_eq] at this
    exact .inl this.2.symm

theorem attrType_dom {d : Bytes} {t : KTy} (h : attrType d = some t) : t ≠ .tdea ∧ t ≠ .none := by
  unfold attrType at h
  repeat' split at h
  all_goals first
    | (cases h; done)
    | (injection h with h; subst h; decide)
    | (have := List.mem_of_find?_eq_some h
       simp only [List.mem_cons, List.not_mem_nil, or_false] at this
       rcases this with h | h | h | h | h | h | h | h | h | h <;> subst h <;> decide)

theorem putAttr_obj (k : K) (ht : tagOf i.c = (Obj.alg k).tag) : PutsObj A i (putAttr i.c k) f r := by
  unfold putAttr readMeta PutsObj
  wps
  all_goals try nops
  · next t h m hm he =>
    refine ⟨fun _ _ => rfl, id, fun h => absurd ⟨[], rfl⟩ h, ?_, fun _ h => absurd rfl h⟩
    intro _ hf o h' _
    have e := tag_inj (.alg k) o (by rw [← h', ht])
    subst e
    obtain ⟨p, hp, hi⟩ := Option.bind_eq_some_iff.mp hm
    refine ⟨attrBytes m, by simp only [val, metaOf, hm, Option.map_some], ?_⟩
    exact attr_shown h ((hf.keys k p hp).info m hi) (by simpa using he)
  · next t h m hm he h1 h2 =>
    obtain ⟨p', hp', hi'⟩ := Option.bind_eq_some_iff.mp hm
    have fit : Fits f → MetaFits k { m with type := t, origin := 0 } := fun hf => by
      refine ⟨((hf.keys k p' hp').info m hi').usage, (attrType_dom h).1, (attrType_dom h).2, ?_⟩
      cases k <;> simp_all
    apply setKey_wp
    · intro p hp
      rw [hp] at hp'; injection hp' with hp'; subst hp'
      refine wp_pure ⟨fun o ho => ?_, fun hf => hf.setKey ?_, fun h => absurd ⟨[], rfl⟩ h, ?_, fun _ h => absurd rfl h⟩
      · by_cases hu : o = .uif k
        · subst hu
          simp only [val, metaOf, setKey_keys, hp, hi', if_true, Option.bind_some, Option.map_some]
        · exact val_setKey_other hp (by rintro (h | h); subst h; exact absurd ht ho; exact absurd h hu) (fun _ => rfl) (fun _ => rfl)
      · obtain ⟨a, b, c⟩ := hf.keys k p hp
        refine ⟨a, b, fun m' e => ?_⟩
        injection e with e; subst e
        exact fit hf
      · intro _ hf o h' hne
        have e := tag_inj (.alg k) o (by rw [← h', ht])
        subst e
        exact ⟨attrBytes { m with type := t, origin := 0 }, by simp only [val, metaOf, setKey_keys, if_true, Option.bind_some, Option.map_some],
          attr_shown h (fit hf) rfl⟩
    · intro _; nops
    · intro _; nops
    · intro _; nops

/-- Closes the side conditions about an object of the file `pgp-data`. -/
macro "setd" ht:ident : tactic => `(tactic| (
  refine putSet_obj _ _ _ _ $ht ?_ ?_ rfl ?_
  · intro d f hd o ho
    apply val_data_other hd
    rcases o with _ | _ | _ | _ | _ | _ | k | k | k | k | k
    all_goals first | rfl | trivial | exact absurd rfl ho | (cases k <;> first | rfl | trivial | exact absurd rfl ho)
  · intro d f hd; rfl
  · intro d h1 h2 h
    simp only [Apdu.Capdu.lc] at h1 h2
    obtain ⟨a, b, c, d, e, g, h, i⟩ := h
    refine ⟨?_, ?_, ?_, ?_, ?_, ?_, ?_, ?_⟩
    all_goals first | assumption | (intro v hv; injection hv with hv; subst hv; omega)))

/-- Closes the side conditions about an attribute of a key. -/
macro "setk" ht:ident : tactic => `(tactic| (
  refine putKeyAttr_obj _ _ _ _ _ $ht ?_ ?_ rfl ?_
  · intro p f hp o ho
    refine val_setKey_other hp ?_ ?_ ?_
    · intro _; rfl
    · intro e; first | rfl | exact absurd e ho
    · intro e; first | rfl | exact absurd e ho
  · intro p f hp; rfl
  · intro p h1 h2 h
    simp only [Apdu.Capdu.lc] at h1 h2
    obtain ⟨a, b, c⟩ := h
    refine ⟨?_, ?_, ?_⟩
    all_goals first | assumption | (intro v hv; injection hv with hv; subst hv; omega)))

theorem putData_obj : PutsObj A i (putData x i) f r := by
  unfold putData PutsObj
  apply wp_bind
  refine needAdmin_wp (fun hv => ?_) (fun hv => by nops)
  apply wp_ite <;> intro ht
  · have ht : tagOf i.c = Obj.name.tag := ht
    setd ht
  apply wp_ite <;> intro ht
  · have ht : tagOf i.c = Obj.login.tag := ht
    setd ht
  apply wp_ite <;> intro ht
  · have ht : tagOf i.c = Obj.lang.tag := ht
    setd ht
  apply wp_ite <;> intro ht
  · have ht : tagOf i.c = Obj.sex.tag := ht
    setd ht
  apply wp_ite <;> intro ht
  · exact putUrl_obj ht
  apply wp_ite <;> intro ht
  · exact putCert_obj ht
  apply wp_ite <;> intro ht
  · exact putAttr_obj .sig ht
  apply wp_ite <;> intro ht
  · exact putAttr_obj .dec ht
  apply wp_ite <;> intro ht
  · exact putAttr_obj .aut ht
  apply wp_ite <;> intro ht
  · exact putPwStatus_obj ht
  apply wp_ite <;> intro ht
  · have ht : tagOf i.c = (Obj.fp .sig).tag := ht
    setk ht
  apply wp_ite <;> intro ht
  · have ht : tagOf i.c = (Obj.fp .dec).tag := ht
    setk ht
  apply wp_ite <;> intro ht
  · have ht : tagOf i.c = (Obj.fp .aut).tag := ht
    setk ht
  apply wp_ite <;> intro ht
  · have ht : tagOf i.c = (Obj.ca .sig).tag := ht
    setd ht
  apply wp_ite <;> intro ht
  · have ht : tagOf i.c = (Obj.ca .dec).tag := ht
    setd ht
  apply wp_ite <;> intro ht
  · have ht : tagOf i.c = (Obj.ca .aut).tag := ht
    setd ht
  apply wp_ite <;> intro ht
  · have ht : tagOf i.c = (Obj.date .sig).tag := ht
    setk ht
  apply wp_ite <;> intro ht
  · have ht : tagOf i.c = (Obj.date .dec).tag := ht
    setk ht
  apply wp_ite <;> intro ht
  · have ht : tagOf i.c = (Obj.date .aut).tag := ht
    setk ht
  apply wp_ite <;> intro ht
  · exact putRc_obj ht
  apply wp_ite <;> intro ht
  · exact putUif_obj .sig ht
  apply wp_ite <;> intro ht
  · exact putUif_obj .dec ht
  apply wp_ite <;> intro ht
  · exact putUif_obj .aut ht
  apply wp_ite <;> intro ht
  · exact putCache_obj ht
  · exact wp_throw (by nops)

end Verif.Pgp
