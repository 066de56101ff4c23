import Verif.Lemmas.Key
/-
C12-C14, C67, C68: TLV lengths and imported keys.
-/
namespace Verif.Key
open Verif.Spec.Key

/-! ### C12 -/

/-- C12. The decoder returns length `n` and header size `k` exactly when the input starts with a
one-, two- or three-byte encoding of `n` of `k` bytes and the value fits in what follows. -/
theorem C12_tlv_iff (data : Bytes) (n k : Nat) :
    tlvLen data 0 data.length = .ok (some (n, k)) ↔
      ∃ hdr rest, data = hdr ++ rest ∧ LenEnc n hdr ∧ hdr.length = k ∧ n ≤ rest.length := by
  constructor
  · intro h
    obtain ⟨l, rest, h1, h2, h3, h4⟩ := tlvLen_inv h
    exact ⟨l, rest, h1, h2, h3.symm, h4⟩
  · rintro ⟨hdr, rest, rfl, h, rfl, hn⟩
    exact tlvLen_enc h (pre := []) (rest := rest) (by simp) rfl (by simp; omega)

/-- C12. The decoder never reads outside the bytes it was given, wherever they lie in memory. -/
theorem C12_never_oob (mem : Bytes) (off len : Nat) (h : off + len ≤ mem.length) :
    InBounds (tlvLen mem off len) := by
  obtain ⟨r, h, _⟩ := tlvLen_safe mem off len h
  exact ⟨r, h⟩

/-- C12. Anything else is flagged as an error. -/
theorem C12_error_iff (data : Bytes) :
    tlvLen data 0 data.length = .ok none ↔
      ¬ ∃ n hdr rest, data = hdr ++ rest ∧ LenEnc n hdr ∧ n ≤ rest.length := by
  constructor
  · rintro h ⟨n, hdr, rest, h1, h2, h3⟩
    have := (C12_tlv_iff data n hdr.length).mpr ⟨hdr, rest, h1, h2, rfl, h3⟩
    rw [h] at this
    simp at this
  · intro h
    obtain ⟨r, hr⟩ := C12_never_oob data 0 data.length (by simp)
    cases r with
    | none => exact hr
    | some q =>
      obtain ⟨hdr, rest, h1, h2, _, h4⟩ := (C12_tlv_iff data q.1 q.2).mp hr
      exact absurd ⟨q.1, hdr, rest, h1, h2, h4⟩ h

-- A two-byte length of 130 with its value, and the same with one byte missing.
example : tlvLen ([0x81, 130] ++ List.replicate 130 7) 0 132 = .ok (some (130, 2)) := by
  decide +kernel
example : tlvLen ([0x81, 130] ++ List.replicate 129 7) 0 131 = .ok none := by decide +kernel

/-! ### C13 -/

/-- C13 (part): the key material of an imported PIV key is parsed without leaving the command data,
and what follows starts inside it. Missing: the policies, see `C13_policies_oob_iff`. -/
theorem C13_key_in_bounds_partial (x : Ext) (ty : KType) (k0 : KeyMat) (mem : Bytes) :
    InBounds (parsePivKey x ty k0 mem).run ∧
    ∀ k off, (parsePivKey x ty k0 mem).run = .ok (.ok (k, off)) → off ≤ mem.length := by
  obtain ⟨r, h1, h2⟩ := parsePivKey_safe x ty k0 mem
  refine ⟨⟨r, h1⟩, fun k off h => ?_⟩
  rw [h1] at h
  exact h2 (k, off) (by injection h)

/-- C13 (refutation): the policies are read out of bounds exactly when the data ends in a truncated
entry after valid ones. -/
theorem C13_policies_oob_iff (k : KeyMat) (b : Bytes) :
    ¬ InBounds (policies k b) ↔
      ∃ pre tail, b = pre ++ tail ∧ Policies pre ∧
        (tail = [0xAA] ∨ tail = [0xAB] ∨ tail = [0xAA, 0x01] ∨ tail = [0xAB, 0x01]) := by
  constructor
  · intro h
    cases hr : policies k b with
    | ok r => exact absurd ⟨r, hr⟩ h
    | error u =>
      obtain ⟨pre, tail, h1, h2, h3⟩ := policies_oob_inv _ b (Nat.le_refl _) k u hr
      exact ⟨pre, tail, h1, h2, by simpa [cut] using h3⟩
  · rintro ⟨pre, tail, rfl, hp, ht⟩ ⟨r, hr⟩
    rw [policies_oob_of pre hp tail (by simpa [cut] using ht)] at hr
    simp at hr

/-- C13 (part): importing a PIV key stays inside the command data when the bytes after the key do
not end in a truncated policy. -/
theorem C13_import_in_bounds_partial (x : Ext) (ty : KType) (k0 : KeyMat) (mem : Bytes)
    (h : ¬ ∃ pre, Policies pre ∧
      (pre ++ [0xAA] <:+ mem ∨ pre ++ [0xAB] <:+ mem ∨ pre ++ [0xAA, 0x01] <:+ mem ∨
        pre ++ [0xAB, 0x01] <:+ mem)) :
    InBounds (parsePiv x ty k0 mem).run := by
  obtain ⟨r, h1, h2⟩ := parsePivKey_safe x ty k0 mem
  cases r with
  | error e =>
    refine ⟨.error e, ?_⟩
    unfold parsePiv
    rw [ExceptT.run_bind, h1]; rfl
  | ok q =>
    have hin : InBounds (policies q.1 (mem.drop q.2)) := by
      refine Classical.byContradiction (fun hc => ?_)
      obtain ⟨pre, tail, e, hp, ht⟩ := (C13_policies_oob_iff _ _).mp hc
      have hs : pre ++ tail <:+ mem := ⟨mem.take q.2, by rw [← e]; simp⟩
      apply h
      refine ⟨pre, hp, ?_⟩
      rcases ht with rfl | rfl | rfl | rfl <;> simp [hs]
    obtain ⟨r, hr⟩ := hin
    refine ⟨r, ?_⟩
    unfold parsePiv
    rw [ExceptT.run_bind, h1]
    exact hr

/-- An elliptic-curve type with a two-byte private key, to keep the examples short. -/
def exTy : KType := { rsa := false, ed25519 := false, x25519 := false, priv := 2, pub := 4 }
def exRsa : KType := { rsa := true, ed25519 := false, x25519 := false, priv := 2, pub := 4 }
def exX : Ext := { eccVerify := fun _ => true, eccComplete := fun _ => true,
                   swapEndian := List.reverse, primeOk := fun _ => true }
def exK : KeyMat := { pinPolicy := 1, touchPolicy := 1, pri := [], e := [], p := [], q := [],
                      dp := [], dq := [], qinv := [] }

/-- C13 (refutation at the command level): importing a key whose data ends in `AA 01` reads past the
end of the command data. -/
theorem C13_import_oob_witness : ¬ InBounds (parsePiv exX exTy exK [0x06, 2, 9, 9, 0xAA, 0x01]).run := by
  rintro ⟨r, h⟩
  have : (parsePiv exX exTy exK [0x06, 2, 9, 9, 0xAA, 0x01]).run = .error .oob := rfl
  rw [this] at h; simp at h

example : (parsePiv exX exTy exK [0x06, 2, 9, 9, 0xAA, 0x01, 0x02]).run
    = .ok (.ok { exK with pri := [9, 9], pinPolicy := 2 }) := rfl

/-! ### C14 -/

/-- C14 (part): the template parser stays inside the command data whenever the remaining length it
is told is right. -/
theorem C14_template_in_bounds_partial (x : Ext) (ty : KType) (k0 : KeyMat) (mem : Bytes)
    (start bufLen : Nat) (h : start + bufLen ≤ mem.length) :
    InBounds (parseOpenpgp x ty k0 mem start bufLen).run := by
  obtain ⟨r, h, _⟩ := parseOpenpgp_safe h x ty k0
  exact ⟨r, h⟩

/-- C14 (refutation and exact extent): the import command leaves the command data exactly when its
control reference template announces three bytes that are not there. -/
theorem C14_import_oob_iff (x : Ext) (keyType : Byte → Option KType) (k0 : KeyMat) (mem : Bytes)
    (hm : mem.length < 65536) :
    ¬ InBounds (importKey x keyType k0 mem) ↔
      ∃ l ref t, mem = [0x4D] ++ l ++ [ref, 0x03] ++ t ∧ LenEnc (2 + t.length) l ∧ t.length < 3 ∧
        (keyType ref).isSome := by
  constructor
  · intro h
    apply Classical.byContradiction
    intro hno
    apply h
    clear h
    unfold importKey
    by_cases h2 : mem.length < 2
    · exact ⟨.error .wrongLength, by simp [h2]⟩
    simp only [h2, if_false]
    rcases mem with _ | ⟨t, mem'⟩
    · simp at h2
    have hr0 : rd (t :: mem') 0 = .ok t := rfl
    simp only [hr0, ok_bind]
    by_cases ht : (t != 0x4D) = true
    · exact ⟨.error .wrongData, by simp [ht]⟩
    simp only [ht, if_false, Bool.false_eq_true]
    have ht : t = 0x4D := by simpa using ht
    subst ht
    have htl : tlvLen (0x4D :: mem') 1 ((0x4D :: mem').length - 1) = tlvLen mem' 0 mem'.length := by
      have := tlvLen_drop (0x4D :: mem') 1 0 mem'.length
      simpa using this.symm
    rw [htl]
    obtain ⟨r, hr⟩ := C12_never_oob mem' 0 mem'.length (by simp)
    rw [hr]
    simp only [ok_bind]
    cases r with
    | none => exact ⟨_, rfl⟩
    | some q =>
      obtain ⟨len, ls⟩ := q
      obtain ⟨hdr, rest, h1, hl, h3, h4⟩ := (C12_tlv_iff mem' len ls).mp hr
      subst h1; subst h3
      simp only
      by_cases hlen : len < 2
      · exact ⟨.error .wrongData, by simp [hlen]⟩
      simp only [hlen, if_false]
      by_cases hlc : (len + hdr.length + 1 != (0x4D :: (hdr ++ rest)).length) = true
      · exact ⟨.error .wrongLength, by simp only [hlc, if_true]; rfl⟩
      simp only [hlc, if_false, Bool.false_eq_true]
      have hlc : len = rest.length := by simp at hlc; omega
      subst hlc
      rcases rest with _ | ⟨ref, _ | ⟨c, rest⟩⟩
      · simp at hlen
      · simp at hlen
      have hr1 : rd (0x4D :: (hdr ++ ref :: c :: rest)) (1 + hdr.length) = .ok ref :=
        rd_at (pre := 0x4D :: hdr) (rest := c :: rest) (by simp) (by simp; omega)
      have hr2 : rd (0x4D :: (hdr ++ ref :: c :: rest)) (1 + hdr.length + 1) = .ok c :=
        rd_at (pre := 0x4D :: (hdr ++ [ref])) (rest := rest) (by simp) (by simp; omega)
      simp only [hr1, ok_bind]
      cases hk : keyType ref with
      | none => exact ⟨_, rfl⟩
      | some ty =>
        simp only [hr2, ok_bind]
        by_cases hc : (c != 0x00 && c != 0x03) = true
        · exact ⟨.error .wrongData, by simp only [hc, if_true]; rfl⟩
        simp only [hc, if_false, Bool.false_eq_true]
        have hfit : 1 + hdr.length + 1 + (c.toNat + 1) ≤ (0x4D :: (hdr ++ ref :: c :: rest)).length := by
          have hc' : c = 0 ∨ c = 3 := by
            by_cases h0 : c = 0 <;> simp_all
          rcases hc' with rfl | rfl
          · simp; omega
          · by_cases ht : rest.length < 3
            · have e : 2 + rest.length = (ref :: (3 : Byte) :: rest).length := by simp; omega
              exact absurd ⟨hdr, ref, rest, by simp, by rw [e]; exact hl, ht, by simp [hk]⟩ hno
            · simp; omega
        rw [if_pos hfit]
        obtain ⟨r, h⟩ := C14_template_in_bounds_partial x ty k0 (0x4D :: (hdr ++ ref :: c :: rest))
          (1 + hdr.length + 1 + (c.toNat + 1))
          ((0x4D :: (hdr ++ ref :: c :: rest)).length - (1 + hdr.length + 1 + (c.toNat + 1))) (by omega)
        rw [h]
        simp only [ok_bind]
        rcases r with (_ | _ | _ | _) | k <;> exact ⟨_, rfl⟩
  · rintro ⟨l, ref, t, rfl, hl, ht, hk⟩ ⟨r, hr⟩
    obtain ⟨ty, hk⟩ := Option.isSome_iff_exists.mp hk
    have hll : 1 ≤ l.length ∧ l.length ≤ 3 := by cases hl <;> simp
    generalize hM : [0x4D] ++ l ++ [ref, 0x03] ++ t = M at *
    have hML : M.length = 1 + l.length + 2 + t.length := by subst hM; simp; omega
    have hr0 : rd M 0 = .ok 0x4D :=
      rd_at (pre := []) (rest := l ++ [ref, 3] ++ t) (by subst hM; simp) rfl
    have htl : tlvLen M 1 (M.length - 1) = .ok (some (2 + t.length, l.length)) :=
      tlvLen_enc hl (pre := [0x4D]) (rest := [ref, 3] ++ t) (by subst hM; simp) rfl (by omega)
    have hr1 : rd M (1 + l.length) = .ok ref :=
      rd_at (pre := 0x4D :: l) (rest := 3 :: t) (by subst hM; simp) (by simp; omega)
    have hr2 : rd M (1 + l.length + 1) = .ok 3 :=
      rd_at (pre := 0x4D :: (l ++ [ref])) (rest := t) (by subst hM; simp) (by simp; omega)
    have hoob : rd M (1 + l.length + 1 + ((3 : Byte).toNat + 1)) = .error .oob := by
      have : M[1 + l.length + 1 + ((3 : Byte).toNat + 1)]? = none := by
        rw [List.getElem?_eq_none_iff]
        have : (3 : Byte).toNat = 3 := rfl
        omega
      simp only [rd, this]
    unfold importKey at hr
    simp only [hr0, ok_bind, htl, hr1, hr2, hk] at hr
    rw [if_neg (by omega), if_neg (by decide)] at hr
    rw [if_neg (by omega), if_neg (by simp; omega), if_neg (by decide)] at hr
    have h3 : (3 : Byte).toNat = 3 := rfl
    rw [if_neg (by rw [hML, h3]; omega)] at hr
    have : (parseOpenpgp x ty k0 M (1 + l.length + 1 + ((3 : Byte).toNat + 1))
        (2 ^ 32 - (1 + l.length + 1 + ((3 : Byte).toNat + 1) - M.length))).run = .error .oob := by
      unfold parseOpenpgp tag2
      rw [if_neg (by rw [h3]; omega), Nat.add_zero, hoob]
      rfl
    rw [this] at hr
    simp at hr

/-- C14 (refutation, concretely): `4D 02 B6 03`. -/
example : importKey exX (fun r => if r == 0xB6 then some exTy else none) exK [0x4D, 2, 0xB6, 3]
    = .error .oob := rfl

/-! ### C67 -/

/-- C67. An elliptic-curve key sent in the PIV import format, followed by any list of valid
policies, is imported as exactly that private key and those policies. -/
theorem C67_piv_ec (x : Ext) (ty : KType) (k0 : KeyMat) (d : Bytes) (ps : List HostPolicy)
    (hrsa : ty.rsa = false) (hx : ty.x25519 = false) (hd : d.length = ty.priv)
    (h256 : ty.priv < 256) (hv : x.eccVerify d = true) (hc : x.eccComplete d = true)
    (hp : ∀ p ∈ ps, p.valid) :
    (parsePiv x ty k0 ([0x06, UInt8.ofNat d.length] ++ d ++ ps.flatMap HostPolicy.enc)).run
      = .ok (.ok { k0 with pri := d, pinPolicy := pinAfter k0.pinPolicy ps,
                           touchPolicy := touchAfter k0.touchPolicy ps }) := by
  have hn : (UInt8.ofNat d.length).toNat = ty.priv := by rw [Verif.Apdu.toNat_ofNat8]; omega
  generalize hM : [0x06, UInt8.ofNat d.length] ++ d ++ ps.flatMap HostPolicy.enc = M
  have hML : ¬ M.length < ty.priv + 2 := by subst hM; simp; omega
  have h0 : rd M 0 = .ok 0x06 := rd_at (pre := []) (rest := UInt8.ofNat d.length :: (d ++ ps.flatMap HostPolicy.enc)) (by subst hM; simp) rfl
  have h1 : rd M 1 = .ok (UInt8.ofNat d.length) := rd_at (pre := [0x06]) (rest := d ++ ps.flatMap HostPolicy.enc) (by subst hM; simp) rfl
  have h2 : rdRange M 2 ty.priv = .ok d :=
    rdRange_at (pre := [0x06, UInt8.ofNat d.length]) (rest := ps.flatMap HostPolicy.enc) (by subst hM; simp) rfl hd.symm
  have hdrop : M.drop (2 + ty.priv) = ps.flatMap HostPolicy.enc := by
    subst hM; rw [List.drop_left' (by simp; omega)]
  have hkey : parsePivKey x ty k0 M = pure ({ k0 with pri := d }, 2 + ty.priv) := by
    unfold parsePivKey
    simp only [hrsa, hx, Bool.false_eq_true, if_false, if_neg hML, h0, h1, h2, liftM_ok, pure_bind, hn,
      bne_self_eq_false, hv, hc, Bool.not_true, Bool.false_and]
  unfold parsePiv
  rw [hkey]
  simp only [pure_bind, hdrop, policies_enc _ ps hp]
  rfl

/-- C67. An RSA key sent in the PIV import format (tags 1 to 5, each component at most as long as
the field and without the leading zeros the host may have dropped) is imported as exactly those
numbers, and with exactly those policies. -/
theorem C67_piv_rsa (x : Ext) (ty : KType) (k0 : KeyMat) (p q dp dq qinv : Bytes)
    (lp lq ldp ldq lqinv : Bytes) (ps : List HostPolicy) (hrsa : ty.rsa = true)
    (hp : LenEnc p.length lp) (hq : LenEnc q.length lq) (hdp : LenEnc dp.length ldp)
    (hdq : LenEnc dq.length ldq) (hqinv : LenEnc qinv.length lqinv)
    (hpl : p.length = ty.priv) (hql : q.length = ty.priv) (hdpl : dp.length ≤ ty.priv)
    (hdql : dq.length ≤ ty.priv) (hqinvl : qinv.length ≤ ty.priv)
    (hpo : x.primeOk p = true) (hqo : x.primeOk q = true) (hps : ∀ p ∈ ps, p.valid) :
    ∃ k, (parsePiv x ty k0 ([1] ++ lp ++ p ++ [2] ++ lq ++ q ++ [3] ++ ldp ++ dp ++ [4] ++ ldq ++ dq
        ++ [5] ++ lqinv ++ qinv ++ ps.flatMap HostPolicy.enc)).run = .ok (.ok k) ∧
      k.e = [0, 1, 0, 1] ∧ k.p = p ∧ k.q = q ∧ Padded ty.priv dp k.dp ∧ Padded ty.priv dq k.dq ∧
      Padded ty.priv qinv k.qinv ∧ k.pinPolicy = pinAfter k0.pinPolicy ps ∧
      k.touchPolicy = touchAfter k0.touchPolicy ps := by
  generalize hM : [1] ++ lp ++ p ++ [2] ++ lq ++ q ++ [3] ++ ldp ++ dp ++ [4] ++ ldq ++ dq
        ++ [5] ++ lqinv ++ qinv ++ ps.flatMap HostPolicy.enc = M
  generalize hP : ps.flatMap HostPolicy.enc = pol at *
  have c1 := rsaComponent_enc (mem := M) (pre := []) (i := 1) (l := lp) (d := p) (off := 0) (priv := ty.priv)
    (rest := [2] ++ lq ++ q ++ [3] ++ ldp ++ dp ++ [4] ++ ldq ++ dq ++ [5] ++ lqinv ++ qinv ++ pol)
    (by subst hM; simp) rfl hp (by omega)
  have c2 := rsaComponent_enc (mem := M) (pre := [] ++ 1 :: (lp ++ p)) (i := 2) (l := lq) (d := q) (priv := ty.priv)
    (off := ([] ++ (1 : Byte) :: (lp ++ p)).length)
    (rest := [3] ++ ldp ++ dp ++ [4] ++ ldq ++ dq ++ [5] ++ lqinv ++ qinv ++ pol)
    (by subst hM; simp) rfl hq (by omega)
  have c3 := rsaComponent_enc (mem := M) (pre := [] ++ 1 :: (lp ++ p) ++ 2 :: (lq ++ q)) (i := 3) (l := ldp) (d := dp)
    (priv := ty.priv) (off := ([] ++ (1 : Byte) :: (lp ++ p) ++ 2 :: (lq ++ q)).length)
    (rest := [4] ++ ldq ++ dq ++ [5] ++ lqinv ++ qinv ++ pol)
    (by subst hM; simp) rfl hdp (by omega)
  have c4 := rsaComponent_enc (mem := M) (pre := [] ++ 1 :: (lp ++ p) ++ 2 :: (lq ++ q) ++ 3 :: (ldp ++ dp)) (i := 4)
    (l := ldq) (d := dq) (priv := ty.priv)
    (off := ([] ++ (1 : Byte) :: (lp ++ p) ++ 2 :: (lq ++ q) ++ 3 :: (ldp ++ dp)).length)
    (rest := [5] ++ lqinv ++ qinv ++ pol)
    (by subst hM; simp) rfl hdq (by omega)
  have c5 := rsaComponent_enc (mem := M)
    (pre := [] ++ 1 :: (lp ++ p) ++ 2 :: (lq ++ q) ++ 3 :: (ldp ++ dp) ++ 4 :: (ldq ++ dq)) (i := 5)
    (l := lqinv) (d := qinv) (priv := ty.priv)
    (off := ([] ++ (1 : Byte) :: (lp ++ p) ++ 2 :: (lq ++ q) ++ 3 :: (ldp ++ dp) ++ 4 :: (ldq ++ dq)).length)
    (rest := pol) (by subst hM; simp) rfl hqinv (by omega)
  have rp : rightAligned ty.priv p = p := by simp [rightAligned, hpl]
  have rq : rightAligned ty.priv q = q := by simp [rightAligned, hql]
  have hdrop : M.drop ([] ++ (1 : Byte) :: (lp ++ p) ++ 2 :: (lq ++ q) ++ 3 :: (ldp ++ dp) ++ 4 :: (ldq ++ dq)
      ++ 5 :: (lqinv ++ qinv)).length = pol := by
    have : M = ([] ++ (1 : Byte) :: (lp ++ p) ++ 2 :: (lq ++ q) ++ 3 :: (ldp ++ dp) ++ 4 :: (ldq ++ dq)
      ++ 5 :: (lqinv ++ qinv)) ++ pol := by subst hM; simp
    rw [this, List.drop_left]
  let k : KeyMat := { k0 with e := [0, 1, 0, 1], p := p, q := q, dp := rightAligned ty.priv dp,
                              dq := rightAligned ty.priv dq, qinv := rightAligned ty.priv qinv }
  have hkey : parsePivKey x ty k0 M = pure (k, ([] ++ (1 : Byte) :: (lp ++ p) ++ 2 :: (lq ++ q)
      ++ 3 :: (ldp ++ dp) ++ 4 :: (ldq ++ dq) ++ 5 :: (lqinv ++ qinv)).length) := by
    unfold parsePivKey
    simp only [hrsa, if_true]
    rw [c1]; simp only [pure_bind]
    rw [c2]; simp only [pure_bind]
    rw [c3]; simp only [pure_bind]
    rw [c4]; simp only [pure_bind]
    rw [c5]; simp only [pure_bind]
    rw [rp, rq]
    simp only [hpo, hqo, Bool.not_true, Bool.or_self, Bool.false_eq_true, if_false]
    rfl
  refine ⟨{ k with pinPolicy := pinAfter k.pinPolicy ps, touchPolicy := touchAfter k.touchPolicy ps }, ?_, ?_⟩
  · unfold parsePiv
    rw [hkey]
    simp only [pure_bind, hdrop]
    rw [← hP, policies_enc _ ps hps]
    rfl
  · exact ⟨rfl, rfl, rfl, rightAligned_padded hdpl, rightAligned_padded hdql, rightAligned_padded hqinvl,
      rfl, rfl⟩

example : (parsePiv exX exRsa exK [1, 2, 9, 9, 2, 2, 8, 8, 3, 1, 7, 4, 2, 1, 2, 5, 1, 6, 0xAB, 1, 2]).run
    = .ok (.ok { exK with e := [0, 1, 0, 1], p := [9, 9], q := [8, 8], dp := [0, 7], dq := [1, 2],
                          qinv := [0, 6], touchPolicy := 2 }) := rfl

/-! ### C68 -/

/-- C68. An elliptic-curve key sent in an OpenPGP extended header list, with or without its public
key (`pubT` is the template entry, `pub` the value), is imported into the slot the header names as
exactly that private key, padded on the left. -/
theorem C68_openpgp_ec (x : Ext) (keyType : Byte → Option KType) (ty : KType) (k0 : KeyMat)
    (ref : Byte) (d pub l0 l1 l2 l92 pubT : Bytes)
    (hk : keyType ref = some ty) (hrsa : ty.rsa = false) (hd : d.length ≤ ty.priv)
    (h92 : LenEnc d.length l92)
    (hpub : (pubT = [] ∧ pub = []) ∨ (TL [0x99] pub.length pubT ∧ pub.length ≤ ty.pub + 1))
    (h1 : LenEnc ([0x92] ++ l92 ++ pubT).length l1) (h22 : ([0x92] ++ l92 ++ pubT).length ≤ 0x16)
    (h2 : LenEnc (d ++ pub).length l2)
    (h0 : LenEnc ([ref, 0, 0x7F, 0x48] ++ l1 ++ [0x92] ++ l92 ++ pubT ++ [0x5F, 0x48] ++ l2 ++ d ++ pub).length l0)
    (hv : x.eccVerify (rightAligned ty.priv d) = true)
    (hc : x.eccComplete (rightAligned ty.priv d) = true) :
    ∃ f, importKey x keyType k0 ([0x4D] ++ l0 ++ [ref, 0, 0x7F, 0x48] ++ l1 ++ [0x92] ++ l92 ++ pubT
        ++ [0x5F, 0x48] ++ l2 ++ d ++ pub) = .ok (.ok (ref, { k0 with pri := f })) ∧
      Padded ty.priv d f := by
  refine ⟨rightAligned ty.priv d, ?_, rightAligned_padded hd⟩
  have q1 : 1 ≤ l1.length := by cases h1 <;> simp
  have q2 : 1 ≤ l2.length := by cases h2 <;> simp
  generalize hM : [0x4D] ++ l0 ++ [ref, 0, 0x7F, 0x48] ++ l1 ++ [0x92] ++ l92 ++ pubT
        ++ [0x5F, 0x48] ++ l2 ++ d ++ pub = M
  have hML : M.length = 1 + l0.length + 4 + l1.length + 1 + l92.length + pubT.length + 2 + l2.length
      + d.length + pub.length := by subst hM; simp; omega
  have hLen : ([ref, 0, 0x7F, 0x48] ++ l1 ++ [0x92] ++ l92 ++ pubT ++ [0x5F, 0x48] ++ l2 ++ d ++ pub).length
      = 4 + l1.length + 1 + l92.length + pubT.length + 2 + l2.length + d.length + pub.length := by
    simp; omega
  rw [hLen] at h0
  have hr0 : rd M 0 = .ok 0x4D := rd_at (pre := [])
    (rest := l0 ++ [ref, 0, 0x7F, 0x48] ++ l1 ++ [0x92] ++ l92 ++ pubT ++ [0x5F, 0x48] ++ l2 ++ d ++ pub)
    (by subst hM; simp) rfl
  have htl := tlvLen_enc h0 (mem := M) (off := 1) (len := M.length - 1) (pre := [0x4D])
    (rest := [ref, 0, 0x7F, 0x48] ++ l1 ++ [0x92] ++ l92 ++ pubT ++ [0x5F, 0x48] ++ l2 ++ d ++ pub)
    (by subst hM; simp) rfl (by omega)
  have hr1 : rd M (1 + l0.length) = .ok ref := rd_at (pre := 0x4D :: l0)
    (rest := [0, 0x7F, 0x48] ++ l1 ++ [0x92] ++ l92 ++ pubT ++ [0x5F, 0x48] ++ l2 ++ d ++ pub)
    (by subst hM; simp) (by simp; omega)
  have hr2 : rd M (1 + l0.length + 1) = .ok 0 := rd_at (pre := 0x4D :: (l0 ++ [ref]))
    (rest := [0x7F, 0x48] ++ l1 ++ [0x92] ++ l92 ++ pubT ++ [0x5F, 0x48] ++ l2 ++ d ++ pub)
    (by subst hM; simp) (by simp; omega)
  have hz : (0 : Byte).toNat = 0 := rfl
  generalize hst : 1 + l0.length + 1 + (0 + 1) = start at *
  generalize hbl : M.length - start = bufLen at *
  have hb : start + bufLen = M.length := by omega
  have t1 : tag2 M start bufLen 0 0x7F 0x48 = pure 2 := tag2_enc (pre := 0x4D :: (l0 ++ [ref, 0]))
    (rest := l1 ++ [0x92] ++ l92 ++ pubT ++ [0x5F, 0x48] ++ l2 ++ d ++ pub)
    (by subst hM; simp) (by simp; omega) hb (by simp; omega)
  have t2 : lenAt M start bufLen 2 .length = pure (([0x92] ++ l92 ++ pubT).length, 2 + l1.length) :=
    lenAt_enc (pre := 0x4D :: (l0 ++ [ref, 0, 0x7F, 0x48]))
    (rest := [0x92] ++ l92 ++ pubT ++ [0x5F, 0x48] ++ l2 ++ d ++ pub)
    (by subst hM; simp) (by simp; omega) h1 hb (by simp)
  have t3 : tagLen M start bufLen (2 + l1.length) 0x92 = pure (d.length, 2 + l1.length + 1 + l92.length) :=
    tagLen_enc (pre := 0x4D :: (l0 ++ [ref, 0, 0x7F, 0x48] ++ l1))
    (rest := pubT ++ [0x5F, 0x48] ++ l2 ++ d ++ pub)
    (by subst hM; simp) (by simp; omega) h92 hb (by simp; omega)
  have t4 : optPub M start bufLen (2 + l1.length + 1 + l92.length)
      (2 + l1.length + ([0x92] ++ l92 ++ pubT).length) ty.pub = pure pub.length := by
    unfold optPub
    rcases hpub with ⟨rfl, rfl⟩ | ⟨ht, hp⟩
    · rw [if_neg (by simp; omega)]; rfl
    · obtain ⟨l99, h99⟩ := ht
      have q9 : 1 ≤ l99.length := by cases h99 <;> simp
      have r1 : rd M (start + (2 + l1.length + 1 + l92.length)) = .ok 0x99 :=
        rd_at (pre := 0x4D :: (l0 ++ [ref, 0, 0x7F, 0x48] ++ l1 ++ [0x92] ++ l92))
        (rest := l99 ++ [0x5F, 0x48] ++ l2 ++ d ++ pub) (by subst hM; simp) (by simp; omega)
      have r2 : lenAt M start bufLen (2 + l1.length + 1 + l92.length + 1) .length
          = pure (pub.length, 2 + l1.length + 1 + l92.length + 1 + l99.length) :=
        lenAt_enc (pre := 0x4D :: (l0 ++ [ref, 0, 0x7F, 0x48] ++ l1 ++ [0x92] ++ l92 ++ [0x99]))
        (rest := [0x5F, 0x48] ++ l2 ++ d ++ pub) (by subst hM; simp) (by simp; omega) h99 hb (by simp; omega)
      rw [if_pos (by simp; omega), if_neg (by simp at hML; omega), r1]
      simp only [liftM_ok, pure_bind, beq_self_eq_true, if_true, r2]
      rw [if_neg (by omega)]
  have t5 : tag2 M start bufLen (2 + l1.length + ([0x92] ++ l92 ++ pubT).length) 0x5F 0x48
      = pure (2 + l1.length + ([0x92] ++ l92 ++ pubT).length + 2) :=
    tag2_enc (pre := 0x4D :: (l0 ++ [ref, 0, 0x7F, 0x48] ++ l1 ++ [0x92] ++ l92 ++ pubT))
    (rest := l2 ++ d ++ pub) (by subst hM; simp) (by simp; omega) hb (by simp; omega)
  have t6 : lenAt M start bufLen (2 + l1.length + ([0x92] ++ l92 ++ pubT).length + 2) .data
      = pure ((d ++ pub).length, 2 + l1.length + ([0x92] ++ l92 ++ pubT).length + 2 + l2.length) :=
    lenAt_enc (pre := 0x4D :: (l0 ++ [ref, 0, 0x7F, 0x48] ++ l1 ++ [0x92] ++ l92 ++ pubT ++ [0x5F, 0x48]))
    (rest := d ++ pub) (by subst hM; simp) (by simp; omega) h2 hb (by simp)
  have t7 : rdRange M (start + (2 + l1.length + ([0x92] ++ l92 ++ pubT).length + 2 + l2.length)) d.length
      = .ok d :=
    rdRange_at (pre := 0x4D :: (l0 ++ [ref, 0, 0x7F, 0x48] ++ l1 ++ [0x92] ++ l92 ++ pubT ++ [0x5F, 0x48] ++ l2))
    (rest := pub) (by subst hM; simp) (by simp; omega) rfl
  have hparse : parseOpenpgp x ty k0 M start bufLen = pure { k0 with pri := rightAligned ty.priv d } := by
    unfold parseOpenpgp
    simp only [t1, pure_bind, t2]
    rw [if_neg (by omega)]
    simp only [hrsa, Bool.false_eq_true, if_false, t3, pure_bind, t4, t5, t6, t7]
    rw [if_neg (by omega), if_neg (by simp), if_neg (by simp at hML ⊢; omega)]
    simp only [liftM_ok, pure_bind, hv, hc, Bool.not_true, Bool.false_eq_true, if_false]
  unfold importKey
  simp only [hr0, htl, hr1, hr2, ok_bind, hk, hz]
  rw [if_neg (by omega), if_neg (by decide), if_neg (by omega), if_neg (by simp; omega), if_neg (by decide),
    hst, if_pos (by omega), hbl, hparse]
  rfl

/-- C68. An RSA key sent in an OpenPGP extended header list is imported into the slot the header
names as exactly those numbers. -/
theorem C68_openpgp_rsa (x : Ext) (keyType : Byte → Option KType) (ty : KType) (k0 : KeyMat)
    (ref : Byte) (e p q qinv dp dq l0 l1 l2 a1 a2 a3 a4 a5 a6 : Bytes)
    (hk : keyType ref = some ty) (hrsa : ty.rsa = true)
    (he : e.length = 4) (hp : p.length = ty.priv) (hq : q.length = ty.priv)
    (hqinv : qinv.length ≤ ty.priv) (hdp : dp.length ≤ ty.priv) (hdq : dq.length ≤ ty.priv)
    (h91 : LenEnc e.length a1) (h92 : LenEnc p.length a2) (h93 : LenEnc q.length a3)
    (h94 : LenEnc qinv.length a4) (h95 : LenEnc dp.length a5) (h96 : LenEnc dq.length a6)
    (T D : Bytes)
    (hT : T = [0x91] ++ a1 ++ [0x92] ++ a2 ++ [0x93] ++ a3 ++ [0x94] ++ a4 ++ [0x95] ++ a5 ++ [0x96] ++ a6)
    (hD : D = e ++ p ++ q ++ qinv ++ dp ++ dq)
    (h1 : LenEnc T.length l1) (h22 : T.length ≤ 0x16) (h2 : LenEnc D.length l2)
    (h0 : LenEnc ([ref, 0, 0x7F, 0x48] ++ l1 ++ T ++ [0x5F, 0x48] ++ l2 ++ D).length l0)
    (hpo : x.primeOk p = true) (hqo : x.primeOk q = true) :
    ∃ k, importKey x keyType k0 ([0x4D] ++ l0 ++ [ref, 0, 0x7F, 0x48] ++ l1 ++ T ++ [0x5F, 0x48] ++ l2 ++ D)
        = .ok (.ok (ref, k)) ∧
      k.e = e ∧ k.p = p ∧ k.q = q ∧ Padded ty.priv qinv k.qinv ∧ Padded ty.priv dp k.dp ∧
      Padded ty.priv dq k.dq := by
  let k : KeyMat := { k0 with e := e, p := p, q := q, qinv := rightAligned ty.priv qinv, dp := rightAligned ty.priv dp, dq := rightAligned ty.priv dq }
  refine ⟨k, ?_, rfl, rfl, rfl, rightAligned_padded hqinv, rightAligned_padded hdp, rightAligned_padded hdq⟩
  have q1 : 1 ≤ l1.length := by cases h1 <;> simp
  have q2 : 1 ≤ l2.length := by cases h2 <;> simp
  generalize hM : [0x4D] ++ l0 ++ [ref, 0, 0x7F, 0x48] ++ l1 ++ T ++ [0x5F, 0x48] ++ l2 ++ D = M
  have hTl : T.length = 6 + a1.length + a2.length + a3.length + a4.length + a5.length + a6.length := by
    subst hT; simp; omega
  have hDl : D.length = e.length + p.length + q.length + qinv.length + dp.length + dq.length := by
    subst hD; simp; omega
  have hML : M.length = 1 + l0.length + 4 + l1.length + T.length + 2 + l2.length + D.length := by
    subst hM; simp; omega
  have hLen : ([ref, 0, 0x7F, 0x48] ++ l1 ++ T ++ [0x5F, 0x48] ++ l2 ++ D).length
      = 4 + l1.length + T.length + 2 + l2.length + D.length := by simp; omega
  rw [hLen] at h0
  have hr0 : rd M 0 = .ok 0x4D := rd_at (pre := [])
    (rest := l0 ++ [ref, 0, 0x7F, 0x48] ++ l1 ++ T ++ [0x5F, 0x48] ++ l2 ++ D) (by subst hM; simp) rfl
  have htl := tlvLen_enc h0 (mem := M) (off := 1) (len := M.length - 1) (pre := [0x4D])
    (rest := [ref, 0, 0x7F, 0x48] ++ l1 ++ T ++ [0x5F, 0x48] ++ l2 ++ D) (by subst hM; simp) rfl (by omega)
  have hr1 : rd M (1 + l0.length) = .ok ref := rd_at (pre := 0x4D :: l0)
    (rest := [0, 0x7F, 0x48] ++ l1 ++ T ++ [0x5F, 0x48] ++ l2 ++ D) (by subst hM; simp) (by simp; omega)
  have hr2 : rd M (1 + l0.length + 1) = .ok 0 := rd_at (pre := 0x4D :: (l0 ++ [ref]))
    (rest := [0x7F, 0x48] ++ l1 ++ T ++ [0x5F, 0x48] ++ l2 ++ D) (by subst hM; simp) (by simp; omega)
  have hz : (0 : Byte).toNat = 0 := rfl
  generalize hst : 1 + l0.length + 1 + (0 + 1) = start at *
  generalize hbl : M.length - start = bufLen at *
  have hb : start + bufLen = M.length := by omega
  have t1 : tag2 M start bufLen 0 0x7F 0x48 = pure 2 := tag2_enc (pre := 0x4D :: (l0 ++ [ref, 0]))
    (rest := l1 ++ T ++ [0x5F, 0x48] ++ l2 ++ D)
    (by subst hM; simp) (by simp; omega) hb (by simp; omega)
  have t2 : lenAt M start bufLen 2 .length = pure (T.length, 2 + l1.length) :=
    lenAt_enc (pre := 0x4D :: (l0 ++ [ref, 0, 0x7F, 0x48])) (rest := T ++ [0x5F, 0x48] ++ l2 ++ D)
    (by subst hM; simp) (by simp; omega) h1 hb (by simp)
  generalize hP : 0x4D :: (l0 ++ [ref, 0, 0x7F, 0x48] ++ l1) = P at *
  generalize hS : [0x5F, 0x48] ++ l2 ++ D = S at *
  have hMP : M = P ++ T ++ S := by subst hM; subst hP; subst hS; simp
  have hPl : P.length = 5 + l0.length + l1.length := by subst hP; simp; omega
  have hSl : S.length = 2 + l2.length + D.length := by subst hS; simp; omega
  have t91 : tagLen M start bufLen (2 + l1.length) 0x91 = pure (e.length, 2 + l1.length + 1 + a1.length) :=
    tagLen_enc (pre := P)
    (rest := [0x92] ++ a2 ++ [0x93] ++ a3 ++ [0x94] ++ a4 ++ [0x95] ++ a5 ++ [0x96] ++ a6 ++ S)
    (by rw [hMP, hT]; simp) (by omega) h91 hb (by simp; omega)
  have t92 : tagLen M start bufLen (2 + l1.length + 1 + a1.length) 0x92
      = pure (p.length, 2 + l1.length + 1 + a1.length + 1 + a2.length) :=
    tagLen_enc (pre := P ++ [0x91] ++ a1)
    (rest := [0x93] ++ a3 ++ [0x94] ++ a4 ++ [0x95] ++ a5 ++ [0x96] ++ a6 ++ S)
    (by rw [hMP, hT]; simp) (by simp; omega) h92 hb (by simp; omega)
  have t93 : tagLen M start bufLen (2 + l1.length + 1 + a1.length + 1 + a2.length) 0x93
      = pure (q.length, 2 + l1.length + 1 + a1.length + 1 + a2.length + 1 + a3.length) :=
    tagLen_enc (pre := P ++ [0x91] ++ a1 ++ [0x92] ++ a2)
    (rest := [0x94] ++ a4 ++ [0x95] ++ a5 ++ [0x96] ++ a6 ++ S)
    (by rw [hMP, hT]; simp) (by simp; omega) h93 hb (by simp; omega)
  have t94 : tagLen M start bufLen (2 + l1.length + 1 + a1.length + 1 + a2.length + 1 + a3.length) 0x94
      = pure (qinv.length, 2 + l1.length + 1 + a1.length + 1 + a2.length + 1 + a3.length + 1 + a4.length) :=
    tagLen_enc (pre := P ++ [0x91] ++ a1 ++ [0x92] ++ a2 ++ [0x93] ++ a3)
    (rest := [0x95] ++ a5 ++ [0x96] ++ a6 ++ S)
    (by rw [hMP, hT]; simp) (by simp; omega) h94 hb (by simp; omega)
  have t95 : tagLen M start bufLen (2 + l1.length + 1 + a1.length + 1 + a2.length + 1 + a3.length + 1 + a4.length) 0x95
      = pure (dp.length, 2 + l1.length + 1 + a1.length + 1 + a2.length + 1 + a3.length + 1 + a4.length + 1 + a5.length) :=
    tagLen_enc (pre := P ++ [0x91] ++ a1 ++ [0x92] ++ a2 ++ [0x93] ++ a3 ++ [0x94] ++ a4)
    (rest := [0x96] ++ a6 ++ S)
    (by rw [hMP, hT]; simp) (by simp; omega) h95 hb (by simp; omega)
  have t96 : tagLen M start bufLen (2 + l1.length + 1 + a1.length + 1 + a2.length + 1 + a3.length + 1 + a4.length
        + 1 + a5.length) 0x96
      = pure (dq.length, 2 + l1.length + 1 + a1.length + 1 + a2.length + 1 + a3.length + 1 + a4.length + 1 + a5.length
        + 1 + a6.length) :=
    tagLen_enc (pre := P ++ [0x91] ++ a1 ++ [0x92] ++ a2 ++ [0x93] ++ a3 ++ [0x94] ++ a4 ++ [0x95] ++ a5)
    (rest := S)
    (by rw [hMP, hT]; simp) (by simp; omega) h96 hb (by omega)
  have t5 : tag2 M start bufLen (2 + l1.length + T.length) 0x5F 0x48 = pure (2 + l1.length + T.length + 2) :=
    tag2_enc (pre := P ++ T) (rest := l2 ++ D) (by rw [hMP, ← hS]; simp) (by simp; omega) hb (by simp; omega)
  have t6 : lenAt M start bufLen (2 + l1.length + T.length + 2) .length
      = pure (D.length, 2 + l1.length + T.length + 2 + l2.length) :=
    lenAt_enc (pre := P ++ T ++ [0x5F, 0x48]) (rest := D)
    (by rw [hMP, ← hS]; simp) (by simp; omega) h2 hb (by simp)
  generalize hO : 2 + l1.length + T.length + 2 + l2.length = O at *
  have hMD : M = P ++ T ++ [0x5F, 0x48] ++ l2 ++ (e ++ p ++ q ++ qinv ++ dp ++ dq) := by
    rw [hMP, ← hS, hD]; simp
  generalize hQ : P ++ T ++ [0x5F, 0x48] ++ l2 = Q at *
  have hQl : start + O = Q.length := by subst hQ; simp; omega
  have r1 : rdRange M (start + O) E_LENGTH = .ok e :=
    rdRange_at (pre := Q) (rest := p ++ q ++ qinv ++ dp ++ dq) (by rw [hMD]; simp) hQl (by simp [E_LENGTH, he])
  have r2 : rdRange M (start + O + E_LENGTH) ty.priv = .ok p :=
    rdRange_at (pre := Q ++ e) (rest := q ++ qinv ++ dp ++ dq) (by rw [hMD]; simp)
      (by simp [E_LENGTH]; omega) hp.symm
  have r3 : rdRange M (start + O + E_LENGTH + ty.priv) ty.priv = .ok q :=
    rdRange_at (pre := Q ++ e ++ p) (rest := qinv ++ dp ++ dq) (by rw [hMD]; simp)
      (by simp [E_LENGTH]; omega) hq.symm
  have r4 : rdRange M (start + O + E_LENGTH + ty.priv + ty.priv) qinv.length = .ok qinv :=
    rdRange_at (pre := Q ++ e ++ p ++ q) (rest := dp ++ dq) (by rw [hMD]; simp)
      (by simp [E_LENGTH]; omega) rfl
  have r5 : rdRange M (start + O + E_LENGTH + ty.priv + ty.priv + qinv.length) dp.length = .ok dp :=
    rdRange_at (pre := Q ++ e ++ p ++ q ++ qinv) (rest := dq) (by rw [hMD]; simp)
      (by simp [E_LENGTH]; omega) rfl
  have r6 : rdRange M (start + O + E_LENGTH + ty.priv + ty.priv + qinv.length + dp.length) dq.length = .ok dq :=
    rdRange_at (pre := Q ++ e ++ p ++ q ++ qinv ++ dp) (rest := []) (by rw [hMD]; simp)
      (by simp [E_LENGTH]; omega) rfl
  have hparse : parseOpenpgp x ty k0 M start bufLen = pure k := by
    unfold parseOpenpgp
    simp only [t1, pure_bind, t2]
    rw [if_neg (by omega)]
    simp only [hrsa, if_true, t91, pure_bind, t92, t93, t94, t95, t96, t5, t6]
    rw [if_neg (by simp [E_LENGTH, he]), if_neg (by simp [hp]), if_neg (by simp [hq]), if_neg (by omega),
      if_neg (by omega), if_neg (by omega), if_neg (by simp [E_LENGTH]; omega), if_neg (by omega)]
    simp only [r1, r2, r3, r4, r5, r6, liftM_ok, pure_bind, hpo, hqo, Bool.not_true, Bool.or_self,
      Bool.false_eq_true, if_false]
    rfl
  unfold importKey
  simp only [hr0, htl, hr1, hr2, ok_bind, hk, hz]
  rw [if_neg (by omega), if_neg (by decide), if_neg (by omega), if_neg (by simp; omega), if_neg (by decide),
    hst, if_pos (by omega), hbl, hparse]
  rfl

example : importKey exX (fun r => if r == 0xB6 then some exRsa else none) exK
    [0x4D, 32, 0xB6, 0, 0x7F, 0x48, 12, 0x91, 4, 0x92, 2, 0x93, 2, 0x94, 1, 0x95, 1, 0x96, 1, 0x5F, 0x48, 11,
     0, 1, 0, 1, 9, 9, 8, 8, 1, 2, 3]
    = .ok (.error .wrongData) := by rfl
example : importKey exX (fun r => if r == 0xB6 then some exRsa else none) exK
    [0x4D, 31, 0xB6, 0, 0x7F, 0x48, 12, 0x91, 4, 0x92, 2, 0x93, 2, 0x94, 1, 0x95, 1, 0x96, 1, 0x5F, 0x48, 11,
     0, 1, 0, 1, 9, 9, 8, 8, 1, 2, 3]
    = .ok (.ok (0xB6, { exK with e := [0, 1, 0, 1], p := [9, 9], q := [8, 8], qinv := [0, 1], dp := [0, 2],
                                 dq := [0, 3] })) := by rfl

example : importKey exX (fun r => if r == 0xB8 then some exTy else none) exK
    [0x4D, 15, 0xB8, 0, 0x7F, 0x48, 4, 0x92, 1, 0x99, 2, 0x5F, 0x48, 3, 9, 4, 5]
    = .ok (.ok (0xB8, { exK with pri := [0, 9] })) := by rfl

end Verif.Key
