import Verif.Lemmas.PgpObj
/-
GET DATA of the OpenPGP applet: what the responses contain, decoded.
-/
set_option linter.unusedSimpArgs false
namespace Verif.Pgp
open Cmd Verif.Spec.Pgp Verif.Spec.PgpData Verif.KeyFile

variable {A : Fault → Prop} {x : Ext} {i : In} {f f' : Flash} {r r' : Ram}

/-! ### Decoding -/

theorem tlvs_nil (n : Nat) : tlvs n [] = some [] := by cases n <;> rfl

theorem lo_toNat {n : Nat} (h : n < 256) : (lo n).toNat = n := by
  simp [lo, UInt8.toNat_ofNat, Nat.mod_eq_of_lt h]

theorem lo_lt {n : Nat} (h : n < 128) : lo n < 0x80 := by
  rw [UInt8.lt_iff_toNat_lt, lo_toNat (by omega)]
  exact h

theorem size_short {v rest : Bytes} (h : v.length < 128) : tlvSize (lo v.length :: (v ++ rest)) = some (v.length, v ++ rest) := by
  simp only [tlvSize]
  rw [if_pos (lo_lt h), lo_toNat (by omega)]

theorem size_long {v rest : Bytes} (h : v.length < 65536) :
    tlvSize (0x82 :: hi v.length :: lo v.length :: (v ++ rest)) = some (v.length, v ++ rest) := by
  simp only [tlvSize]
  rw [if_neg (by decide), if_neg (by decide), if_pos trivial]
  have e : (hi v.length).toNat * 256 + (lo v.length).toNat = v.length := by
    simp only [hi, lo, UInt8.toNat_ofNat']
    omega
  simp only [e]

theorem tlvs_cons {n : Nat} {c : Byte} {b : Bytes} : tlvs (n + 1) (c :: b) =
    match tlvTag (c :: b) with
    | none => none
    | some (t, b) =>
      match tlvSize b with
      | none => none
      | some (l, b) => if l ≤ b.length then (tlvs n (b.drop l)).map ((t, b.take l) :: ·) else none := rfl

theorem tlvs_one {n : Nat} {t : Nat} {b v rest rest' : Bytes} (ht : tlvTag b = some (t, rest'))
    (hs : tlvSize rest' = some (v.length, v ++ rest)) : tlvs (n + 1) b = (tlvs n rest).map ((t, v) :: ·) := by
  have hb : b ≠ [] := by rintro rfl; cases ht
  cases b with
  | nil => exact absurd rfl hb
  | cons c b =>
    rw [tlvs_cons, ht]; simp only []
    rw [hs]; simp only []
    rw [if_pos (by simp), List.drop_left, List.take_left]

/-- One byte of tag, one byte of length. -/
theorem tlvs1 {n : Nat} {b : Byte} {v rest : Bytes} (hb : b &&& 0x1F ≠ 0x1F) (hv : v.length < 128) :
    tlvs (n + 1) (b :: lo v.length :: (v ++ rest)) = (tlvs n rest).map ((b.toNat, v) :: ·) := by
  refine tlvs_one (rest' := lo v.length :: (v ++ rest)) ?_ (size_short hv)
  simp only [tlvTag, if_neg hb]

/-- Two bytes of tag, one byte of length. -/
theorem tlvs2 {n : Nat} {b c : Byte} {v rest : Bytes} (hb : b &&& 0x1F = 0x1F) (hc : c < 0x80) (hv : v.length < 128) :
    tlvs (n + 1) (b :: c :: lo v.length :: (v ++ rest)) = (tlvs n rest).map ((b.toNat * 256 + c.toNat, v) :: ·) := by
  refine tlvs_one (rest' := lo v.length :: (v ++ rest)) ?_ (size_short hv)
  simp only [tlvTag, if_pos hb, if_pos hc]

/-- One byte of tag, three bytes of length. -/
theorem tlvs82 {n : Nat} {b : Byte} {v rest : Bytes} (hb : b &&& 0x1F ≠ 0x1F) (hv : v.length < 65536) :
    tlvs (n + 1) (b :: 0x82 :: hi v.length :: lo v.length :: (v ++ rest)) = (tlvs n rest).map ((b.toNat, v) :: ·) := by
  refine tlvs_one (rest' := 0x82 :: hi v.length :: lo v.length :: (v ++ rest)) ?_ (size_long hv)
  simp only [tlvTag, if_neg hb]

theorem tlvs_mono {l : List (Nat × Bytes)} : ∀ {n m : Nat} {b : Bytes}, tlvs n b = some l → n ≤ m → tlvs m b = some l := by
  intro n
  induction n generalizing l with
  | zero =>
    intro m b h _
    cases b with
    | nil => rw [tlvs_nil]; exact h
    | cons c b => cases h
  | succ n ih =>
    intro m b h hm
    obtain ⟨m, rfl⟩ : ∃ k, m = k + 1 := ⟨m - 1, by omega⟩
    cases b with
    | nil => rw [tlvs_nil]; exact h
    | cons c b =>
      rw [tlvs_cons] at h ⊢
      split at h
      · cases h
      · next t b1 h1 =>
        split at h
        · cases h
        · next l1 b2 h2 =>
          split at h
          · next hl =>
            rw [if_pos hl]
            obtain ⟨l', h', rfl⟩ := Option.map_eq_some_iff.mp h
            rw [ih h' (by omega)]; rfl
          · cases h

theorem find_of {n t : Nat} {b : Bytes} {l : List (Nat × Bytes)} (h : tlvs n b = some l) (hn : n ≤ b.length) :
    find t b = (l.find? fun p => p.1 = t).map (·.2) := by
  unfold find decode
  rw [tlvs_mono h hn]; rfl

/-! ### Cardholder related data -/

/-- The response for 65. -/
def holder (n l s : Bytes) : Bytes :=
  let b := [0x5B, lo n.length] ++ n ++ [0x5F, 0x2D, lo l.length] ++ l ++ [0x5F, 0x35, lo s.length] ++ s
  [0x65, lo b.length] ++ b

theorem holder_find {n l s : Bytes} (hn : n.length ≤ 39) (hl : l.length ≤ 8) (hs : s.length ≤ 1) :
    path [0x65, 0x5B] (holder n l s) = some n ∧ path [0x65, 0x5F2D] (holder n l s) = some l ∧
    path [0x65, 0x5F35] (holder n l s) = some s := by
  generalize hb : [0x5B, lo n.length] ++ n ++ [0x5F, 0x2D, lo l.length] ++ l ++ [0x5F, 0x35, lo s.length] ++ s = b
  have lb : b.length = 8 + n.length + l.length + s.length := by subst hb; simp; omega
  have h1 : tlvs 1 (holder n l s) = some [(0x65, b)] := by
    have := tlvs1 (n := 0) (b := 0x65) (v := b) (rest := []) (by decide) (by omega)
    rw [tlvs_nil] at this
    unfold holder
    simp only [hb]
    simpa using this
  have h2 : tlvs 3 b = some [(0x5B, n), (0x5F2D, l), (0x5F35, s)] := by
    have e : b = 0x5B :: lo n.length :: (n ++ (0x5F :: 0x2D :: lo l.length :: (l ++ (0x5F :: 0x35 :: lo s.length :: (s ++ []))))) := by
      subst hb; simp
    rw [e, tlvs1 (by decide) (by omega), tlvs2 (by decide) (by decide) (by omega), tlvs2 (by decide) (by decide) (by omega), tlvs_nil]
    rfl
  have hh : (holder n l s).length ≥ 1 := by simp [holder]
  unfold path
  simp only [List.foldl_cons, List.foldl_nil, Option.bind_some, find_of h1 hh, find_of h2 (by omega : 3 ≤ b.length)]
  simp [find_of h2 (by omega : 3 ≤ b.length)]

/-! ### Application related data -/

/-- The response for 6E without its parts. -/
def ddoOf (s d a pw f1 f2 f3 c1 c2 c3 d1 d2 d3 og u1 u2 u3 : Bytes) : Bytes :=
  0xC0 :: lo extCaps.length :: (extCaps ++ (0xC1 :: lo s.length :: (s ++ (0xC2 :: lo d.length :: (d ++
    (0xC3 :: lo a.length :: (a ++ (0xC4 :: lo pw.length :: (pw ++
    (0xC5 :: lo (f1 ++ f2 ++ f3).length :: ((f1 ++ f2 ++ f3) ++ (0xC6 :: lo (c1 ++ c2 ++ c3).length :: ((c1 ++ c2 ++ c3) ++
    (0xCD :: lo (d1 ++ d2 ++ d3).length :: ((d1 ++ d2 ++ d3) ++ (0xDE :: lo og.length :: (og ++
    (0xD6 :: lo u1.length :: (u1 ++ (0xD7 :: lo u2.length :: (u2 ++ (0xD8 :: lo u3.length :: (u3 ++ [])))))))))))))))))))))))

theorem ddo_tlvs {s d a pw f1 f2 f3 c1 c2 c3 d1 d2 d3 og u1 u2 u3 : Bytes} (hs : s.length < 128) (hd : d.length < 128)
    (ha : a.length < 128) (hp : pw.length < 128) (hf1 : f1.length = 20) (hf2 : f2.length = 20) (hf3 : f3.length = 20)
    (hc1 : c1.length = 20) (hc2 : c2.length = 20) (hc3 : c3.length = 20) (hd1 : d1.length = 4) (hd2 : d2.length = 4)
    (hd3 : d3.length = 4) (ho : og.length < 128) (hu1 : u1.length < 128) (hu2 : u2.length < 128) (hu3 : u3.length < 128) :
    tlvs 12 (ddoOf s d a pw f1 f2 f3 c1 c2 c3 d1 d2 d3 og u1 u2 u3) =
      some [(0xC0, extCaps), (0xC1, s), (0xC2, d), (0xC3, a), (0xC4, pw), (0xC5, f1 ++ f2 ++ f3), (0xC6, c1 ++ c2 ++ c3),
        (0xCD, d1 ++ d2 ++ d3), (0xDE, og), (0xD6, u1), (0xD7, u2), (0xD8, u3)] := by
  unfold ddoOf
  rw [tlvs1 (by decide) (by decide), tlvs1 (by decide) hs, tlvs1 (by decide) hd, tlvs1 (by decide) ha, tlvs1 (by decide) hp,
    tlvs1 (by decide) (by simp; omega), tlvs1 (by decide) (by simp; omega), tlvs1 (by decide) (by simp; omega),
    tlvs1 (by decide) ho, tlvs1 (by decide) hu1, tlvs1 (by decide) hu2, tlvs1 (by decide) hu3, tlvs_nil]
  rfl

/-- The response for 6E. -/
def appOf (aid ddo : Bytes) : Bytes :=
  let body := [0x4F, 16] ++ aid ++ [0x5F, 0x52, 10] ++ historical ++ [0x7F, 0x66, 8] ++ extLength ++
    [0x7F, 0x74, 3, 0x81, 1, 0x20] ++ [0x73, 0x82, hi ddo.length, lo ddo.length] ++ ddo
  [0x6E, 0x82, hi body.length, lo body.length] ++ body

theorem app_find {a ddo : Bytes} {t : Nat} (ha : a.length = 16) (hd : ddo.length < 60000) :
    path [0x6E, 0x73, t] (appOf a ddo) = find t ddo := by
  generalize hb : [0x4F, 16] ++ a ++ [0x5F, 0x52, 10] ++ historical ++ [0x7F, 0x66, 8] ++ extLength ++
    [0x7F, 0x74, 3, 0x81, 1, 0x20] ++ [0x73, 0x82, hi ddo.length, lo ddo.length] ++ ddo = b
  have lb : b.length = 52 + ddo.length := by
    subst hb
    simp only [List.length_append, ha, List.length_cons, List.length_nil, show historical.length = 10 from rfl, show extLength.length = 8 from rfl]
  have h1 : tlvs 1 (appOf a ddo) = some [(0x6E, b)] := by
    have := tlvs82 (n := 0) (b := 0x6E) (v := b) (rest := []) (by decide) (by omega)
    rw [tlvs_nil] at this
    unfold appOf
    simp only [hb]
    simpa using this
  have h2 : tlvs 5 b = some [(0x4F, a), (0x5F52, historical), (0x7F66, extLength), (0x7F74, [0x81, 1, 0x20]), (0x73, ddo)] := by
    have e : b = 0x4F :: lo a.length :: (a ++ (0x5F :: 0x52 :: lo historical.length :: (historical ++
        (0x7F :: 0x66 :: lo extLength.length :: (extLength ++ (0x7F :: 0x74 :: lo ([0x81, 1, 0x20] : Bytes).length :: ([0x81, 1, 0x20] ++
        (0x73 :: 0x82 :: hi ddo.length :: lo ddo.length :: (ddo ++ []))))))))) := by
      subst hb
      rw [ha]
      simp [historical, extLength, lo]
    rw [e, tlvs1 (by decide) (by omega), tlvs2 (by decide) (by decide) (by decide), tlvs2 (by decide) (by decide) (by decide),
      tlvs2 (by decide) (by decide) (by decide), tlvs82 (by decide) (by omega), tlvs_nil]
    rfl
  have hh : (appOf a ddo).length ≥ 1 := by simp [appOf]
  unfold path
  simp only [List.foldl_cons, List.foldl_nil, Option.bind_some, find_of h1 hh]
  simp [find_of h2 (by omega : 5 ≤ b.length)]

/-! ### The command -/

/-- Something that is read is missing. -/
def Lacks (f : Flash) : Prop := (∃ o, val o f = none) ∨ ∃ w : Which, ∀ p, (partF w).get f = some p → p.ctr = none

/-- A retry counter as it is shown. -/
def Shown (A : Fault → Prop) (p : Pin.Flash) (b : Byte) : Prop := ∃ n, Pin.RetEff A p (some n) ∧ b = UInt8.ofNat n

theorem retries_shows {w : Which} {Q : Byte → Flash → Ram → Prop} {E : Reply → Flash → Ram → Prop} {X : Flash → Ram → Prop}
    (hQ : ∀ n, Shown A ((partF w).get f) n → Q n f r) (hE : A .fail ∨ Lacks f → E ioErr f r) (hX : A .cut → X f r) :
    wp A (retries w) Q E X f r := by
  unfold retries
  apply wp_bind
  apply wp_onPin Pin.getRetries_wp
  · rintro n p q ⟨hn, rfl, rfl⟩
    rw [set_get_F, set_get_R]
    cases n with
    | none =>
      refine wp_throw (hE ?_)
      cases hn with
      | io h => exact h.imp id fun h => .inr ⟨w, h⟩
    | some n => exact wp_pure (hQ _ ⟨n, hn, rfl⟩)
  · rintro p q ⟨h, rfl, rfl⟩
    rw [set_get_F, set_get_R]
    exact hX h

theorem lacks_data {α : Type} {g : Data → Option α} (o : Obj) (h : f.data.bind g = none)
    (hv : ∀ f, f.data.bind g = none → val o f = none) : Lacks f := .inl ⟨o, hv f h⟩

/-- The status of the PINs. -/
def PwOf (A : Fault → Prop) (f : Flash) (pw : Bytes) : Prop :=
  ∃ s a b c, pw = [s, 64, 64, 64, a, b, c] ∧ val .pw f = some [s] ∧ Shown A f.pw1 a ∧ Shown A f.rc b ∧ Shown A f.pw3 c

theorem pwStatus_shows {Q : Bytes → Flash → Ram → Prop} {E : Reply → Flash → Ram → Prop} {X : Flash → Ram → Prop}
    (hQ : ∀ n, PwOf A f n → Q n f r) (hE : A .fail ∨ Lacks f → E ioErr f r) (hX : A .cut → X f r) :
    wp A pwStatus Q E X f r := by
  unfold pwStatus getAttr
  wps
  · next s hs =>
    refine retries_shows (fun a ha => ?_) hE hX
    wps
    refine retries_shows (fun b hb => ?_) hE hX
    wps
    refine retries_shows (fun c hc => ?_) hE hX
    wps
    exact hQ _ ⟨s, a, b, c, rfl, by simp [val, hs], ha, hb, hc⟩
  · next h => exact hE (.inr (.inl ⟨.pw, by simp [val, h]⟩))
  · next h => exact hE (.inl h)
  · exact hX ‹_›

theorem fillAttr_shows {m : Meta} {k : K} {Q : Bytes → Flash → Ram → Prop} {E : Reply → Flash → Ram → Prop} {X : Flash → Ram → Prop}
    (hQ : Q (lo (attrBytes m).length :: attrBytes m) f r) (hE : ∀ e, Bad (.done e) → ¬ MetaFits k m → E e f r) :
    wp A (fillAttr m) Q E X f r := by
  unfold fillAttr
  unfold attrBytes at hQ
  wps
  · next h =>
    refine hE _ bad_ub fun hm => ?_
    have := hm.type
    simp at h
    rcases h with h | h
    · exact this.1 h
    · exact this.2.1 h
  · next h hw hu =>
    have hu : m.usage = 1 := by simpa using hu
    rw [if_pos hw, if_pos hu] at hQ
    have e : (0x13 :: List.drop 1 (algoAttr m.type)).length = (algoAttr m.type).length := by
      cases ht : m.type <;> rw [ht] at hw <;> first | rfl | cases hw
    rw [e] at hQ; exact hQ
  · next h hw hn hu =>
    have hu : m.usage = 2 := by simpa using hu
    rw [if_pos hw, if_neg (by rw [hu]; decide)] at hQ
    have e : (0x12 :: List.drop 1 (algoAttr m.type)).length = (algoAttr m.type).length := by
      cases ht : m.type <;> rw [ht] at hw <;> first | rfl | cases hw
    rw [e] at hQ; exact hQ
  · next h hw h1 h2 =>
    refine hE _ bad_io fun hm => ?_
    have := hm.usage
    simp at h1 h2
    split at this
    · exact h2 this
    · exact h1 this
  · next h hw =>
    rw [if_neg hw] at hQ; exact hQ

theorem attr_length (m : Meta) : (attrBytes m).length < 128 := by
  unfold attrBytes
  split
  · cases m.type <;> simp [algoAttr]
  · cases m.type <;> simp [algoAttr]

/-- The discretionary data objects of a card. -/
def DdoOf (A : Fault → Prop) (f : Flash) (ms md ma : Meta) (b : Bytes) : Prop :=
  ∃ pw f1 f2 f3 c1 c2 c3 d1 d2 d3, PwOf A f pw ∧
    val (.fp .sig) f = some f1 ∧ val (.fp .dec) f = some f2 ∧ val (.fp .aut) f = some f3 ∧
    val (.ca .sig) f = some c1 ∧ val (.ca .dec) f = some c2 ∧ val (.ca .aut) f = some c3 ∧
    val (.date .sig) f = some d1 ∧ val (.date .dec) f = some d2 ∧ val (.date .aut) f = some d3 ∧
    b = [0xC0, 10] ++ extCaps ++ [0xC1] ++ (lo (attrBytes ms).length :: attrBytes ms) ++ [0xC2] ++
      (lo (attrBytes md).length :: attrBytes md) ++ [0xC3] ++ (lo (attrBytes ma).length :: attrBytes ma) ++ [0xC4, 7] ++ pw ++
    [0xC5, 60] ++ f1 ++ f2 ++ f3 ++ [0xC6, 60] ++ c1 ++ c2 ++ c3 ++ [0xCD, 12] ++ d1 ++ d2 ++ d3 ++
    [0xDE, 6, 1, ms.origin, 2, md.origin, 3, ma.origin] ++
    [0xD6, 2, uifOf ms.touch, 0x20, 0xD7, 2, uifOf md.touch, 0x20, 0xD8, 2, uifOf ma.touch, 0x20]

theorem discretionary_shows {ms md ma : Meta} {Q : Bytes → Flash → Ram → Prop} {E : Reply → Flash → Ram → Prop}
    {X : Flash → Ram → Prop} (hms : metaOf f .sig = some ms) (hmd : metaOf f .dec = some md) (hma : metaOf f .aut = some ma)
    (hQ : ∀ b, DdoOf A f ms md ma b → Q b f r)
    (hE : ∀ e, Bad (.done e) → A .fail ∨ Lacks f ∨ ¬ Fits f → E e f r) (hX : A .cut → X f r) :
    wp A (discretionary ms md ma) Q E X f r := by
  have hm : ∀ k m, metaOf f k = some m → ¬ MetaFits k m → A .fail ∨ Lacks f ∨ ¬ Fits f := by
    intro k m h hn
    obtain ⟨p, hp, hi⟩ := Option.bind_eq_some_iff.mp h
    exact .inr (.inr fun hf => hn ((hf.keys k p hp).info m hi))
  have hl : ∀ o, val o f = none → A .fail ∨ Lacks f ∨ ¬ Fits f := fun o h => .inr (.inl (.inl ⟨o, h⟩))
  unfold discretionary getAttr
  apply wp_bind; refine fillAttr_shows (k := .sig) ?_ (fun e he h => hE e he (hm _ _ hms h))
  apply wp_bind; refine fillAttr_shows (k := .dec) ?_ (fun e he h => hE e he (hm _ _ hmd h))
  apply wp_bind; refine fillAttr_shows (k := .aut) ?_ (fun e he h => hE e he (hm _ _ hma h))
  apply wp_bind; refine pwStatus_shows (fun pw hpw => ?_) (fun h => hE _ bad_io (h.imp id .inl)) hX
  have hio : A .fail → E ioErr f r := fun h => hE _ bad_io (.inl h)
  apply wp_bind; refine wp_rdOr (fun f1 hf1 => ?_) (fun h => hE _ bad_io (hl (.fp .sig) h)) hio hX
  apply wp_bind; refine wp_rdOr (fun f2 hf2 => ?_) (fun h => hE _ bad_io (hl (.fp .dec) h)) hio hX
  apply wp_bind; refine wp_rdOr (fun f3 hf3 => ?_) (fun h => hE _ bad_io (hl (.fp .aut) h)) hio hX
  apply wp_bind; refine wp_rdOr (fun c1 hc1 => ?_) (fun h => hE _ bad_io (hl (.ca .sig) h)) hio hX
  apply wp_bind; refine wp_rdOr (fun c2 hc2 => ?_) (fun h => hE _ bad_io (hl (.ca .dec) h)) hio hX
  apply wp_bind; refine wp_rdOr (fun c3 hc3 => ?_) (fun h => hE _ bad_io (hl (.ca .aut) h)) hio hX
  apply wp_bind; refine wp_rdOr (fun d1 hd1 => ?_) (fun h => hE _ bad_io (hl (.date .sig) h)) hio hX
  apply wp_bind; refine wp_rdOr (fun d2 hd2 => ?_) (fun h => hE _ bad_io (hl (.date .dec) h)) hio hX
  apply wp_bind; refine wp_rdOr (fun d3 hd3 => ?_) (fun h => hE _ bad_io (hl (.date .aut) h)) hio hX
  exact wp_pure (hQ _ ⟨pw, f1, f2, f3, c1, c2, c3, d1, d2, d3, hpw, hf1, hf2, hf3, hc1, hc2, hc3, hd1, hd2, hd3, rfl⟩)

/-- The sizes of the objects in flash. -/
theorem fits_val (hf : Fits f) {o : Obj} {v : Bytes} (h : val o f = some v) :
    match o with
    | .name => v.length ≤ 39
    | .login => v.length ≤ 63
    | .lang => v.length ≤ 8
    | .sex => v.length ≤ 1
    | .url => v.length ≤ 255
    | .fp _ | .ca _ => v.length = 20
    | .date _ => v.length = 4
    | _ => True := by
  have hd : ∀ {α : Type} {g : Data → Option α} {v : α}, f.data.bind g = some v → ∃ d, DataFits d ∧ g d = some v := by
    intro α g v h
    obtain ⟨d, h1, h2⟩ := Option.bind_eq_some_iff.mp h
    exact ⟨d, hf.data d h1, h2⟩
  have hk : ∀ {α : Type} {k : K} {g : PKey → Option α} {v : α}, (f.keys k).bind g = some v → ∃ p, KeyFits k p ∧ g p = some v := by
    intro α k g v h
    obtain ⟨d, h1, h2⟩ := Option.bind_eq_some_iff.mp h
    exact ⟨d, hf.keys k d h1, h2⟩
  rcases o with _ | _ | _ | _ | _ | _ | k | k | k | k | k
  · obtain ⟨d, h1, h2⟩ := hd h; exact h1.name v h2
  · obtain ⟨d, h1, h2⟩ := hd h; exact h1.login v h2
  · obtain ⟨d, h1, h2⟩ := hd h; exact h1.lang v h2
  · obtain ⟨d, h1, h2⟩ := hd h; exact h1.sex v h2
  · obtain ⟨d, h1, rfl⟩ := Option.map_eq_some_iff.mp h; exact (hf.data d h1).url
  · trivial
  · trivial
  · obtain ⟨p, h1, h2⟩ := hk h; exact h1.fp v h2
  · obtain ⟨p, h1, h2⟩ := hk h; exact h1.date v h2
  · trivial
  · cases k <;> (obtain ⟨d, h1, h2⟩ := hd h; first | exact h1.ca1 v h2 | exact h1.ca2 v h2 | exact h1.ca3 v h2)

/-- What the response to GET DATA shows of an object. -/
def Has (o : Obj) (f : Flash) (d : Bytes) : Prop := ∃ v, val o f = some v ∧ o.inside d = some v

/-- The retry counters in the response. -/
def HasPw (A : Fault → Prop) (f : Flash) (d : Bytes) : Prop :=
  ∃ pw, PwOf A f pw ∧ path [0x6E, 0x73, 0xC4] d = some pw

theorem ddo_shape {as ad aa f1 f2 f3 c1 c2 c3 d1 d2 d3 : Bytes} {s a b c o1 o2 o3 u1 u2 u3 : Byte}
    (hf1 : f1.length = 20) (hf2 : f2.length = 20) (hf3 : f3.length = 20)
    (hc1 : c1.length = 20) (hc2 : c2.length = 20) (hc3 : c3.length = 20) (hd1 : d1.length = 4) (hd2 : d2.length = 4)
    (hd3 : d3.length = 4) : [0xC0, 10] ++ extCaps ++ [0xC1] ++ (lo as.length :: as) ++ [0xC2] ++
      (lo ad.length :: ad) ++ [0xC3] ++ (lo aa.length :: aa) ++ [0xC4, 7] ++ [s, 64, 64, 64, a, b, c] ++
    [0xC5, 60] ++ f1 ++ f2 ++ f3 ++ [0xC6, 60] ++ c1 ++ c2 ++ c3 ++ [0xCD, 12] ++ d1 ++ d2 ++ d3 ++
    [0xDE, 6, 1, o1, 2, o2, 3, o3] ++ [0xD6, 2, u1, 0x20, 0xD7, 2, u2, 0x20, 0xD8, 2, u3, 0x20] =
    ddoOf as ad aa [s, 64, 64, 64, a, b, c] f1 f2 f3 c1 c2 c3 d1 d2 d3 [1, o1, 2, o2, 3, o3] [u1, 0x20] [u2, 0x20] [u3, 0x20] := by
  have e60 : lo 60 = 60 := rfl
  have e12 : lo 12 = 12 := rfl
  have e10 : lo 10 = 10 := rfl
  have e7 : lo 7 = 7 := rfl
  have e6 : lo 6 = 6 := rfl
  have e2 : lo 2 = 2 := rfl
  have l1 : (f1 ++ f2 ++ f3).length = 60 := by simp [hf1, hf2, hf3]
  have l2 : (c1 ++ c2 ++ c3).length = 60 := by simp [hc1, hc2, hc3]
  have l3 : (d1 ++ d2 ++ d3).length = 12 := by simp [hd1, hd2, hd3]
  unfold ddoOf
  rw [l1, l2, l3, e60, e12]
  simp only [extCaps, List.length_cons, List.length_nil, Nat.zero_add, Nat.reduceAdd, e10, e7, e6, e2, List.append_assoc,
    List.cons_append, List.nil_append, List.append_nil]

theorem ddo_len {as ad aa f1 f2 f3 c1 c2 c3 d1 d2 d3 : Bytes} {s a b c o1 o2 o3 u1 u2 u3 : Byte}
    (h1 : as.length < 128) (h2 : ad.length < 128) (h3 : aa.length < 128)
    (hf1 : f1.length = 20) (hf2 : f2.length = 20) (hf3 : f3.length = 20)
    (hc1 : c1.length = 20) (hc2 : c2.length = 20) (hc3 : c3.length = 20) (hd1 : d1.length = 4) (hd2 : d2.length = 4)
    (hd3 : d3.length = 4) :
    (ddoOf as ad aa [s, 64, 64, 64, a, b, c] f1 f2 f3 c1 c2 c3 d1 d2 d3 [1, o1, 2, o2, 3, o3] [u1, 0x20] [u2, 0x20] [u3, 0x20]).length < 60000 ∧
    12 ≤ (ddoOf as ad aa [s, 64, 64, 64, a, b, c] f1 f2 f3 c1 c2 c3 d1 d2 d3 [1, o1, 2, o2, 3, o3] [u1, 0x20] [u2, 0x20] [u3, 0x20]).length := by
  have le : extCaps.length = 10 := rfl
  simp only [ddoOf, List.length_append, List.length_cons, List.length_nil, le, hf1, hf2, hf3, hc1, hc2, hc3, hd1, hd2, hd3]
  omega

theorem ddo_eq {ms md ma : Meta} {b : Bytes} (hf : Fits f) (h : DdoOf A f ms md ma b) :
    ∃ pw f1 f2 f3 c1 c2 c3 d1 d2 d3, PwOf A f pw ∧
    val (.fp .sig) f = some f1 ∧ val (.fp .dec) f = some f2 ∧ val (.fp .aut) f = some f3 ∧
    val (.ca .sig) f = some c1 ∧ val (.ca .dec) f = some c2 ∧ val (.ca .aut) f = some c3 ∧
    val (.date .sig) f = some d1 ∧ val (.date .dec) f = some d2 ∧ val (.date .aut) f = some d3 ∧ b.length < 60000 ∧ 12 ≤ b.length ∧
    tlvs 12 b = some [(0xC0, extCaps), (0xC1, attrBytes ms), (0xC2, attrBytes md), (0xC3, attrBytes ma), (0xC4, pw),
        (0xC5, f1 ++ f2 ++ f3), (0xC6, c1 ++ c2 ++ c3), (0xCD, d1 ++ d2 ++ d3), (0xDE, [1, ms.origin, 2, md.origin, 3, ma.origin]),
        (0xD6, [uifOf ms.touch, 0x20]), (0xD7, [uifOf md.touch, 0x20]), (0xD8, [uifOf ma.touch, 0x20])] := by
  obtain ⟨pw, f1, f2, f3, c1, c2, c3, d1, d2, d3, hpw, hf1, hf2, hf3, hc1, hc2, hc3, hd1, hd2, hd3, hb⟩ := h
  have hpw' := hpw
  obtain ⟨s, a, b', c, rfl, _⟩ := hpw'
  have lf1 : f1.length = 20 := fits_val hf hf1
  have lf2 : f2.length = 20 := fits_val hf hf2
  have lf3 : f3.length = 20 := fits_val hf hf3
  have lc1 : c1.length = 20 := fits_val hf hc1
  have lc2 : c2.length = 20 := fits_val hf hc2
  have lc3 : c3.length = 20 := fits_val hf hc3
  have ld1 : d1.length = 4 := fits_val hf hd1
  have ld2 : d2.length = 4 := fits_val hf hd2
  have ld3 : d3.length = 4 := fits_val hf hd3
  rw [ddo_shape lf1 lf2 lf3 lc1 lc2 lc3 ld1 ld2 ld3] at hb
  have ht := ddo_tlvs (attr_length ms) (attr_length md) (attr_length ma) (pw := [s, 64, 64, 64, a, b', c])
      (Nat.lt_of_sub_eq_succ rfl) lf1 lf2 lf3 lc1 lc2 lc3 ld1 ld2 ld3
      (og := [1, ms.origin, 2, md.origin, 3, ma.origin]) (Nat.lt_of_sub_eq_succ rfl) (u1 := [uifOf ms.touch, 0x20]) (Nat.lt_of_sub_eq_succ rfl)
      (u2 := [uifOf md.touch, 0x20]) (Nat.lt_of_sub_eq_succ rfl) (u3 := [uifOf ma.touch, 0x20]) (Nat.lt_of_sub_eq_succ rfl)
  have hl := ddo_len (attr_length ms) (attr_length md) (attr_length ma) (s := s) (a := a) (b := b') (c := c) lf1 lf2 lf3 lc1 lc2 lc3 ld1 ld2 ld3
    (o1 := ms.origin) (o2 := md.origin) (o3 := ma.origin) (u1 := uifOf ms.touch) (u2 := uifOf md.touch) (u3 := uifOf ma.touch)
  rw [← hb] at ht hl
  exact ⟨_, f1, f2, f3, c1, c2, c3, d1, d2, d3, hpw, hf1, hf2, hf3, hc1, hc2, hc3, hd1, hd2, hd3, hl.1, hl.2, ht⟩

theorem sn_length (h : i.sn.length ≤ 6) : (aidSn i).length = 16 := by
  have : aid.length = 16 := rfl
  simp only [aidSn, List.length_append, List.length_take, List.length_drop, this]
  omega

theorem app_has {ms md ma : Meta} {b : Bytes} (hs : i.sn.length ≤ 6) (hf : Fits f) (hms : metaOf f .sig = some ms)
    (hmd : metaOf f .dec = some md) (hma : metaOf f .aut = some ma) (h : DdoOf A f ms md ma b) :
    (∀ o : Obj, o.request = 0x6E → Has o f (appOf (aidSn i) b)) ∧ HasPw A f (appOf (aidSn i) b) := by
  obtain ⟨pw, f1, f2, f3, c1, c2, c3, d1, d2, d3, hpw, hf1, hf2, hf3, hc1, hc2, hc3, hd1, hd2, hd3, hb1, hb2, ht⟩ := ddo_eq hf h
  have lf1 : f1.length = 20 := fits_val hf hf1
  have lf2 : f2.length = 20 := fits_val hf hf2
  have lf3 : f3.length = 20 := fits_val hf hf3
  have lc1 : c1.length = 20 := fits_val hf hc1
  have lc2 : c2.length = 20 := fits_val hf hc2
  have lc3 : c3.length = 20 := fits_val hf hc3
  have ld1 : d1.length = 4 := fits_val hf hd1
  have ld2 : d2.length = 4 := fits_val hf hd2
  have ld3 : d3.length = 4 := fits_val hf hd3
  have hp : ∀ t, path [0x6E, 0x73, t] (appOf (aidSn i) b) = _ := fun t => (app_find (sn_length hs) hb1).trans (find_of ht hb2)
  have t1 : ∀ (x y z : Bytes) (n : Nat), x.length = n → List.take n (List.drop 0 (x ++ y ++ z)) = x := by
    rintro x y z n rfl; simp
  have t2 : ∀ (x y z : Bytes) (n : Nat), x.length = n → y.length = n → List.take n (List.drop n (x ++ y ++ z)) = y := by
    rintro x y z n rfl h; rw [List.append_assoc, List.drop_left, ← h, List.take_left]
  have t3 : ∀ (x y z : Bytes) (n m : Nat), x.length = n → y.length = n → z.length = n → m = n * 2 →
      List.take n (List.drop m (x ++ y ++ z)) = z := by
    rintro x y z n m h1 h2 h3 rfl
    rw [show n * 2 = (x ++ y).length by simp; omega, List.drop_left, ← h3, List.take_length]
  refine ⟨fun o ho => ?_, pw, hpw, ?_⟩
  · rcases o with _ | _ | _ | _ | _ | _ | k | k | k | k | k
    · cases ho
    · cases ho
    · cases ho
    · cases ho
    · cases ho
    · obtain ⟨s, a, b, c, rfl, hv, _⟩ := hpw
      exact ⟨[s], hv, by simp only [Obj.inside, hp]; rfl⟩
    · cases k
      · exact ⟨attrBytes ms, by simp [val, hms], by simp only [Obj.inside, hp]; rfl⟩
      · exact ⟨attrBytes md, by simp [val, hmd], by simp only [Obj.inside, hp]; rfl⟩
      · exact ⟨attrBytes ma, by simp [val, hma], by simp only [Obj.inside, hp]; rfl⟩
    · cases k
      · exact ⟨f1, hf1, by simp only [Obj.inside, hp]; exact congrArg some (t1 _ _ _ _ lf1)⟩
      · exact ⟨f2, hf2, by simp only [Obj.inside, hp]; exact congrArg some (t2 _ _ _ _ lf1 lf2)⟩
      · exact ⟨f3, hf3, by simp only [Obj.inside, hp]; exact congrArg some (t3 _ _ _ _ _ lf1 lf2 lf3 rfl)⟩
    · cases k
      · exact ⟨d1, hd1, by simp only [Obj.inside, hp]; exact congrArg some (t1 _ _ _ _ ld1)⟩
      · exact ⟨d2, hd2, by simp only [Obj.inside, hp]; exact congrArg some (t2 _ _ _ _ ld1 ld2)⟩
      · exact ⟨d3, hd3, by simp only [Obj.inside, hp]; exact congrArg some (t3 _ _ _ _ _ ld1 ld2 ld3 rfl)⟩
    · cases k
      · exact ⟨[uifOf ms.touch, 0x20], by simp [val, hms], by simp only [Obj.inside, hp]; rfl⟩
      · exact ⟨[uifOf md.touch, 0x20], by simp [val, hmd], by simp only [Obj.inside, hp]; rfl⟩
      · exact ⟨[uifOf ma.touch, 0x20], by simp [val, hma], by simp only [Obj.inside, hp]; rfl⟩
    · cases k
      · exact ⟨c1, hc1, by simp only [Obj.inside, hp]; exact congrArg some (t1 _ _ _ _ lc1)⟩
      · exact ⟨c2, hc2, by simp only [Obj.inside, hp]; exact congrArg some (t2 _ _ _ _ lc1 lc2)⟩
      · exact ⟨c3, hc3, by simp only [Obj.inside, hp]; exact congrArg some (t3 _ _ _ _ _ lc1 lc2 lc3 rfl)⟩
  · rw [hp]; rfl

/-- GET DATA for an object: flash is as it was, and the response has the object. -/
theorem getData_has (o : Obj) (ht : tagOf i.c = o.request) :
    wp A (getData i)
      (fun a f' _ => f' = f ∧ ∃ d, a = .resp d 0x9000 ∧ (i.sn.length ≤ 6 → Fits f → Has o f d ∧ (o.request = 0x6E → HasPw A f d)))
      (fun a f' _ => f' = f ∧ Bad (.done a) ∧ (i.c.lc ≠ 0 ∨ A .fail ∨ Lacks f ∨ ¬ Fits f)) (fun f' _ => A .cut ∧ f' = f) f r := by
  have hl : ∀ o, val o f = none → i.c.lc ≠ 0 ∨ A .fail ∨ Lacks f ∨ ¬ Fits f := fun o h => .inr (.inr (.inl (.inl ⟨o, h⟩)))
  unfold getData readMeta getAttr
  apply wp_ite
  · intro h; exact wp_throw ⟨rfl, bad_sw (by decide), .inl (by simpa using h)⟩
  intro _
  simp only [ht]
  have io : ∀ o, val o f = none → f = f ∧ Bad (.done ioErr) ∧ (i.c.lc ≠ 0 ∨ A .fail ∨ Lacks f ∨ ¬ Fits f) :=
    fun o h => ⟨rfl, bad_io, hl o h⟩
  have fl : A .fail → f = f ∧ Bad (.done ioErr) ∧ (i.c.lc ≠ 0 ∨ A .fail ∨ Lacks f ∨ ¬ Fits f) :=
    fun h => ⟨rfl, bad_io, .inr (.inl h)⟩
  apply wp_bind; refine wp_rdOr (fun ms hms => ?_) (fun h => io (.alg .sig) (by simp only [val, metaOf]; rw [h]; rfl)) fl (fun h => ⟨h, rfl⟩)
  apply wp_bind; refine wp_rdOr (fun md hmd => ?_) (fun h => io (.alg .dec) (by simp only [val, metaOf]; rw [h]; rfl)) fl (fun h => ⟨h, rfl⟩)
  apply wp_bind; refine wp_rdOr (fun ma hma => ?_) (fun h => io (.alg .aut) (by simp only [val, metaOf]; rw [h]; rfl)) fl (fun h => ⟨h, rfl⟩)
  have h6E : o.request = 0x6E → wp A (appData i ms md ma)
      (fun a f' _ => f' = f ∧ ∃ d, a = .resp d 0x9000 ∧ (i.sn.length ≤ 6 → Fits f → Has o f d ∧ (o.request = 0x6E → HasPw A f d)))
      (fun a f' _ => f' = f ∧ Bad (.done a) ∧ (i.c.lc ≠ 0 ∨ A .fail ∨ Lacks f ∨ ¬ Fits f)) (fun f' _ => A .cut ∧ f' = f) f r := by
    intro ho
    unfold appData
    apply wp_bind
    refine discretionary_shows hms hmd hma (fun b hb => ?_) (fun e he h => ⟨rfl, he, .inr h⟩) (fun h => ⟨h, rfl⟩)
    exact wp_pure ⟨rfl, _, rfl, fun hs hf => ⟨(app_has hs hf hms hmd hma hb).1 o ho, fun _ => (app_has hs hf hms hmd hma hb).2⟩⟩
  have h65 : o.request = 0x65 → (o = .name ∨ o = .lang ∨ o = .sex) := by
    intro h
    rcases o with _ | _ | _ | _ | _ | _ | k | k | k | k | k
    all_goals first | (cases h; done) | simp
  have hr : o.request = 0x5E ∧ o = .login ∨ o.request = 0x5F50 ∧ o = .url ∨ o.request = 0x65 ∨ o.request = 0x6E := by
    rcases o with _ | _ | _ | _ | _ | _ | k | k | k | k | k <;> simp [Obj.request]
  rcases hr with ⟨ho, rfl⟩ | ⟨ho, rfl⟩ | ho | ho
  · rw [ho, if_neg (by decide), if_pos rfl]
    apply wp_bind; refine wp_rdOr (fun v hv => ?_) (fun h => io .login h) fl (fun h => ⟨h, rfl⟩)
    exact wp_pure ⟨rfl, _, rfl, fun hs hf => ⟨⟨v, hv, rfl⟩, fun h => (by cases h)⟩⟩
  · rw [ho, if_neg (by decide), if_neg (by decide), if_pos rfl]
    apply wp_bind; refine wp_rdOr (fun v hv => ?_) (fun h => io .url (by
      cases hd : f.data with
      | none => simp [val, hd]
      | some d => rw [hd] at h; cases h)) fl (fun h => ⟨h, rfl⟩)
    refine wp_pure ⟨rfl, _, rfl, fun hs hf => ⟨⟨v, ?_, rfl⟩, fun h => (by cases h)⟩⟩
    obtain ⟨d, hd, rfl⟩ := Option.map_eq_some_iff.mp hv
    simp only [val, hd, Option.map_some, List.take_of_length_le (hf.data d hd).url]
  · simp only [ho, Nat.reduceEqDiff, if_false, if_true]
    apply wp_bind; refine wp_rdOr (fun n hn => ?_) (fun h => io .name h) fl (fun h => ⟨h, rfl⟩)
    apply wp_bind; refine wp_rdOr (fun l hl' => ?_) (fun h => io .lang h) fl (fun h => ⟨h, rfl⟩)
    apply wp_bind; refine wp_rdOr (fun s hs => ?_) (fun h => io .sex h) fl (fun h => ⟨h, rfl⟩)
    refine wp_pure ⟨rfl, _, rfl, fun _ hf => ⟨?_, fun h => (by simp at h)⟩⟩
    have hh := holder_find (fits_val hf (o := .name) hn) (fits_val hf (o := .lang) hl') (fits_val hf (o := .sex) hs)
    rcases h65 ho with rfl | rfl | rfl
    · exact ⟨n, hn, hh.1⟩
    · exact ⟨l, hl', hh.2.1⟩
    · exact ⟨s, hs, hh.2.2⟩
  · have h := h6E ho
    simp only [ho, Nat.reduceEqDiff, if_false, if_true] at h ⊢
    exact h

/-- GET DATA as a step. -/
theorem step_get {s : St} {env : Env} (henv : env.all A) (o : Obj) (hi : i.c.ins = 0xCA) (ht : tagOf i.c = o.request) :
    (step x s (.apdu i) env).1.flash = s.flash ∧ ∀ d, (step x s (.apdu i) env).2 = .reply (.resp d 0x9000) → i.sn.length ≤ 6 →
      Fits s.flash → Has o s.flash d ∧ (o.request = 0x6E → HasPw A s.flash d) := by
  cases hr : s.ram with
  | none =>
    obtain ⟨f, ram⟩ := s
    dsimp only at hr; subst hr
    exact ⟨rfl, fun d h => by cases h⟩
  | some r =>
    obtain ⟨out, f', r', h, e⟩ := step_any (x := x) (i := i) (s := s) (env := env) henv hr
      (P := fun out f' _ => f' = s.flash ∧ ∀ d, out = .done (.resp d 0x9000) → i.sn.length ≤ 6 →
        Fits s.flash → Has o s.flash d ∧ (o.request = 0x6E → HasPw A s.flash d))
      (fun sw r' h => ⟨rfl, fun d e => by injection e with e; injection e with _ e; exact absurd e h⟩)
      (fun r' => ⟨rfl, fun d e => by cases e⟩)
      (fun r0 t _ _ _ => by
        rw [show dispatch x i t = getData i by simp [dispatch, hi]]
        refine wp_mono (getData_has (A := A) (i := i) (f := s.flash) (r := r0) o ht) ?_ ?_ ?_
        · rintro a f' r' ⟨rfl, d, rfl, h⟩
          refine ⟨rfl, fun d' e => ?_⟩
          injection e with e; injection e with e; subst e; exact h
        · rintro a f' r' ⟨rfl, h, _⟩
          refine ⟨rfl, fun d e => ?_⟩
          rw [e] at h
          rcases h with ⟨_, h⟩ | ⟨_, hn, h⟩
          · cases h
          · injection h with h; injection h with _ h; exact absurd h.symm hn
        · rintro f' r' ⟨_, rfl⟩
          exact ⟨rfl, fun d e => by cases e⟩)
    rw [e]
    refine ⟨h.1, fun d e => h.2 d ?_⟩
    cases out with
    | cut => cases e
    | done a => injection e with e; rw [e]

end Verif.Pgp
