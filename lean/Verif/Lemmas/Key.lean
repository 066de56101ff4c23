import Verif.Spec.Key
import Verif.Lemmas.Apdu
set_option linter.unusedSimpArgs false
namespace Verif.Key
open Verif.Spec.Key Verif.Apdu

/-- The length decoder stays inside the bytes it was given and guarantees that header and value
fit. -/
theorem tlvLen_safe (mem : Bytes) (off len : Nat) (h : off + len ≤ mem.length) :
    ∃ r, tlvLen mem off len = .ok r ∧ ∀ n k, r = some (n, k) → n + k ≤ len ∧ 1 ≤ k ∧ k ≤ 3 := by
  unfold tlvLen
  by_cases h0 : len < 1
  · exact ⟨none, by simp [h0], by simp⟩
  · simp only [h0, if_false]
    rw [rd_ok (by omega : off < mem.length)]
    simp only [ok_bind]
    by_cases h1 : mem[off]'(by omega) < 0x80
    · simp only [h1, if_true, pure_eq_ok, ok_bind]
      by_cases h2 : (mem[off]'(by omega)).toNat + 1 > len
      · exact ⟨none, by simp [h2], by simp⟩
      · refine ⟨some ((mem[off]'(by omega)).toNat, 1), by simp [h2], ?_⟩
        rintro n k e; simp at e; obtain ⟨rfl, rfl⟩ := e; exact ⟨by omega, by omega, by omega⟩
    · simp only [h1, if_false]
      by_cases h3 : (mem[off]'(by omega) == 0x81) = true
      · simp only [h3, if_true]
        by_cases h4 : len < 2
        · exact ⟨none, by simp [h4], by simp⟩
        · simp only [h4, if_false]
          rw [rd_ok (by omega : off + 1 < mem.length)]
          simp only [ok_bind, pure_eq_ok]
          by_cases h2 : (mem[off + 1]'(by omega)).toNat + 2 > len
          · exact ⟨none, by simp [h2], by simp⟩
          · refine ⟨some ((mem[off + 1]'(by omega)).toNat, 2), by simp [h2], ?_⟩
            rintro n k e; simp at e; obtain ⟨rfl, rfl⟩ := e; exact ⟨by omega, by omega, by omega⟩
      · simp only [h3, if_false, Bool.false_eq_true]
        by_cases h5 : (mem[off]'(by omega) == 0x82) = true
        · simp only [h5, if_true]
          by_cases h4 : len < 3
          · exact ⟨none, by simp [h4], by simp⟩
          · simp only [h4, if_false]
            rw [rd_ok (by omega : off + 1 < mem.length), rd_ok (by omega : off + 2 < mem.length)]
            simp only [ok_bind, pure_eq_ok]
            by_cases h2 : be16 (mem[off + 1]'(by omega)) (mem[off + 2]'(by omega)) + 3 > len
            · exact ⟨none, by simp [h2], by simp⟩
            · refine ⟨some (be16 (mem[off + 1]'(by omega)) (mem[off + 2]'(by omega)), 3), by simp [h2], ?_⟩
              rintro n k e; simp at e; obtain ⟨rfl, rfl⟩ := e; exact ⟨by omega, by omega, by omega⟩
        · exact ⟨none, by simp [h5], by simp⟩

theorem rd_at {mem pre rest : Bytes} {b : Byte} {off : Nat} (h : mem = pre ++ b :: rest)
    (ho : off = pre.length) : rd mem off = .ok b := by
  subst h; subst ho
  simp [rd]

theorem rdRange_at {mem pre d rest : Bytes} {off n : Nat} (h : mem = pre ++ (d ++ rest))
    (ho : off = pre.length) (hn : n = d.length) : rdRange mem off n = .ok d := by
  subst h; subst ho; subst hn
  rw [rdRange_ok (by simp)]
  simp

theorem tlvLen_enc {n : Nat} {l : Bytes} (hl : LenEnc n l) {mem pre rest : Bytes} {off len : Nat}
    (h : mem = pre ++ (l ++ rest)) (ho : off = pre.length) (hlen : n + l.length ≤ len) :
    tlvLen mem off len = .ok (some (n, l.length)) := by
  cases hl with
  | one hn =>
    have e : (UInt8.ofNat n).toNat = n := by rw [toNat_ofNat8]; omega
    have hlt : UInt8.ofNat n < 0x80 := by rw [UInt8.lt_iff_toNat_lt, e]; exact hn
    have h0 : ¬ len < 1 := by simp at hlen; omega
    have hgt : ¬ (n + 1 > len) := by simp at hlen; omega
    unfold tlvLen
    simp only [h0, if_false, rd_at h ho, ok_bind, hlt, if_true, e, pure_eq_ok, hgt]
    rfl
  | two hn =>
    have e : (UInt8.ofNat n).toNat = n := by rw [toNat_ofNat8]; omega
    have h1 : mem = (pre ++ [0x81]) ++ UInt8.ofNat n :: rest := by simp [h]
    have h0 : ¬ len < 1 := by simp at hlen; omega
    have h2 : ¬ len < 2 := by simp at hlen; omega
    have hgt : ¬ (n + 2 > len) := by simp at hlen; omega
    have hlt : ¬ ((0x81 : Byte) < 0x80) := by decide
    unfold tlvLen
    simp only [h0, if_false, rd_at h ho, rd_at h1 (off := off + 1) (by simp [ho]), ok_bind, hlt, e,
      pure_eq_ok, beq_self_eq_true, if_true, h2, hgt]
    rfl
  | three hn =>
    have h1 : mem = (pre ++ [0x82]) ++ UInt8.ofNat (n / 256) :: UInt8.ofNat n :: rest := by simp [h]
    have h1' : mem = (pre ++ [0x82, UInt8.ofNat (n / 256)]) ++ UInt8.ofNat n :: rest := by simp [h]
    have e : be16 (UInt8.ofNat (n / 256)) (UInt8.ofNat n) = n := by rw [be16_be2]; omega
    have h0 : ¬ len < 1 := by simp at hlen; omega
    have h2 : ¬ len < 3 := by simp at hlen; omega
    have hgt : ¬ (n + 3 > len) := by simp at hlen; omega
    have hlt : ¬ ((0x82 : Byte) < 0x80) := by decide
    have hne : ((0x82 : Byte) == 0x81) = false := by decide
    unfold tlvLen
    simp only [h0, if_false, rd_at h ho, rd_at h1 (off := off + 1) (by simp [ho]),
      rd_at h1' (off := off + 2) (by simp [ho]), ok_bind, hlt, hne, e,
      pure_eq_ok, beq_self_eq_true, if_true, h2, hgt, Bool.false_eq_true]
    rfl

theorem tlvLen_inv {mem : Bytes} {n k : Nat} (h : tlvLen mem 0 mem.length = .ok (some (n, k))) :
    ∃ l rest, mem = l ++ rest ∧ LenEnc n l ∧ k = l.length ∧ n ≤ rest.length := by
  unfold tlvLen at h
  rcases mem with _ | ⟨b, rest⟩
  · simp at h
  · have hr : rd (b :: rest) 0 = .ok b := rfl
    simp only [hr, ok_bind] at h
    split at h
    · simp at h
    · split at h
      · next hb =>
        simp only [pure_eq_ok, ok_bind] at h
        split at h
        · simp at h
        · next hn =>
          simp at h
          obtain ⟨rfl, rfl⟩ := h
          refine ⟨[b], rest, rfl, ?_, rfl, by simp at hn; omega⟩
          have hb' : b.toNat < 128 := by rw [UInt8.lt_iff_toNat_lt] at hb; simpa using hb
          simpa using LenEnc.one b.toNat hb'
      · split at h
        · next hb =>
          have hb : b = 0x81 := by simpa using hb
          subst hb
          rcases rest with _ | ⟨c, rest⟩
          · simp at h
          · have hr : rd (0x81 :: c :: rest) 1 = .ok c := rfl
            rw [if_neg (by simp)] at h
            simp only [Nat.zero_add, hr, ok_bind, pure_eq_ok] at h
            split at h
            · simp at h
            · next hn =>
              simp at h
              obtain ⟨rfl, rfl⟩ := h
              refine ⟨[0x81, c], rest, rfl, ?_, rfl, by simp at hn; omega⟩
              simpa using LenEnc.two c.toNat c.toNat_lt
        · split at h
          · next hb =>
            have hb : b = 0x82 := by simpa using hb
            subst hb
            rcases rest with _ | ⟨c, _ | ⟨d, rest⟩⟩
            · simp at h
            · simp at h
            · have hr : rd (0x82 :: c :: d :: rest) 1 = .ok c := rfl
              have hr' : rd (0x82 :: c :: d :: rest) 2 = .ok d := rfl
              rw [if_neg (by simp)] at h
              simp only [Nat.zero_add, hr, hr', ok_bind, pure_eq_ok] at h
              split at h
              · simp at h
              · next hn =>
                simp at h
                obtain ⟨rfl, rfl⟩ := h
                refine ⟨[0x82, c, d], rest, rfl, ?_, rfl, by simp at hn; omega⟩
                have hlt : be16 c d < 65536 := by
                  have := c.toNat_lt; have := d.toNat_lt; unfold be16; omega
                have := LenEnc.three (be16 c d) hlt
                have e := be2_be16 c d
                simp only [Verif.Spec.Apdu.be2] at e
                rw [e] at this
                exact this
          · simp at h

theorem _root_.Verif.Safe.tlv {mem : Bytes} {off len : Nat} (h : off + len ≤ mem.length) :
    Safe (liftM (tlvLen mem off len) : P (Option (Nat × Nat)))
      (fun r => ∀ n k, r = some (n, k) → n + k ≤ len ∧ 1 ≤ k ∧ k ≤ 3) := by
  obtain ⟨r, h1, h2⟩ := tlvLen_safe mem off len h
  exact Safe.lift h1 h2

theorem rsaComponent_safe (mem : Bytes) (priv : Nat) (i : Byte) (off : Nat) :
    Safe (rsaComponent mem priv i off) (fun r => r.2 ≤ mem.length) := by
  unfold rsaComponent
  refine Safe.ite (fun _ => Safe.throw) (fun h => ?_)
  refine Safe.bind (Safe.rd' (by omega)) (fun t _ => ?_)
  refine Safe.ite (fun _ => Safe.throw) (fun _ => ?_)
  refine Safe.bind (Safe.tlv (by omega)) (fun r hr => ?_)
  cases r with
  | none => exact Safe.throw
  | some q =>
    obtain ⟨n, k⟩ := q
    have := hr n k rfl
    refine Safe.ite (fun _ => Safe.throw) (fun _ => ?_)
    refine Safe.bind (Safe.rdRange (by omega)) (fun d _ => Safe.pure ?_)
    show off + 1 + k + n ≤ mem.length
    omega

theorem parsePivKey_safe (x : Ext) (ty : KType) (k0 : KeyMat) (mem : Bytes) :
    Safe (parsePivKey x ty k0 mem) (fun r => r.2 ≤ mem.length) := by
  unfold parsePivKey
  refine Safe.ite (fun _ => ?_) (fun _ => ?_)
  · refine Safe.bind (rsaComponent_safe _ _ _ _) (fun _ _ => ?_)
    refine Safe.bind (rsaComponent_safe _ _ _ _) (fun _ _ => ?_)
    refine Safe.bind (rsaComponent_safe _ _ _ _) (fun _ _ => ?_)
    refine Safe.bind (rsaComponent_safe _ _ _ _) (fun _ _ => ?_)
    refine Safe.bind (rsaComponent_safe _ _ _ _) (fun r hr => ?_)
    exact Safe.ite (fun _ => Safe.throw) (fun _ => Safe.pure hr)
  · refine Safe.ite (fun _ => Safe.throw) (fun h => ?_)
    refine Safe.bind (Safe.rd' (by omega)) (fun t _ => ?_)
    refine Safe.ite (fun _ => Safe.throw) (fun _ => ?_)
    refine Safe.bind (Safe.rd' (by omega)) (fun l _ => ?_)
    refine Safe.ite (fun _ => Safe.throw) (fun _ => ?_)
    refine Safe.bind (Safe.rdRange (by omega)) (fun d _ => ?_)
    refine Safe.ite (fun _ => Safe.throw) (fun _ => ?_)
    refine Safe.ite (fun _ => Safe.throw) (fun _ => ?_)
    exact Safe.pure (by show 2 + ty.priv ≤ mem.length; omega)

section
variable {mem : Bytes} {start bufLen : Nat} (h : start + bufLen ≤ mem.length)
include h

theorem tagLen_safe (off : Nat) (tag : Byte) :
    Safe (tagLen mem start bufLen off tag) (fun r => r.1 + r.2 ≤ bufLen) := by
  unfold tagLen
  refine Safe.ite (fun _ => Safe.throw) (fun _ => ?_)
  refine Safe.bind (Safe.rd' (by omega)) (fun t _ => ?_)
  refine Safe.ite (fun _ => Safe.throw) (fun _ => ?_)
  refine Safe.bind (Safe.tlv (by omega)) (fun r hr => ?_)
  cases r with
  | none => exact Safe.throw
  | some q =>
    have := hr q.1 q.2 rfl
    exact Safe.pure (by show q.1 + (off + 1 + q.2) ≤ bufLen; omega)

theorem tag2_safe (off : Nat) (a b : Byte) :
    Safe (tag2 mem start bufLen off a b) (fun r => r ≤ bufLen) := by
  unfold tag2
  refine Safe.ite (fun _ => Safe.throw) (fun _ => ?_)
  refine Safe.bind (Safe.rd' (by omega)) (fun t _ => ?_)
  refine Safe.ite (fun _ => Safe.throw) (fun _ => ?_)
  refine Safe.bind (Safe.rd' (by omega)) (fun t _ => ?_)
  refine Safe.ite (fun _ => Safe.throw) (fun _ => ?_)
  exact Safe.pure (by show off + 2 ≤ bufLen; omega)

theorem lenAt_safe (off : Nat) (ho : off ≤ bufLen) (e : KErr) :
    Safe (lenAt mem start bufLen off e) (fun r => r.1 + r.2 ≤ bufLen) := by
  unfold lenAt
  refine Safe.bind (Safe.tlv (by omega)) (fun r hr => ?_)
  cases r with
  | none => exact Safe.throw
  | some q =>
    have := hr q.1 q.2 rfl
    exact Safe.pure (by show q.1 + (off + q.2) ≤ bufLen; omega)

theorem optPub_safe (off dataTag pub : Nat) :
    Safe (optPub mem start bufLen off dataTag pub) (fun _ => True) := by
  unfold optPub
  refine Safe.ite (fun _ => ?_) (fun _ => Safe.pure trivial)
  refine Safe.ite (fun _ => Safe.throw) (fun _ => ?_)
  refine Safe.bind (Safe.rd' (by omega)) (fun t _ => ?_)
  refine Safe.ite (fun _ => ?_) (fun _ => Safe.pure trivial)
  refine Safe.bind (lenAt_safe h _ (by omega) _) (fun q2 _ => ?_)
  exact Safe.ite (fun _ => Safe.throw) (fun _ => Safe.pure trivial)

theorem parseOpenpgp_safe (x : Ext) (ty : KType) (k0 : KeyMat) :
    Safe (parseOpenpgp x ty k0 mem start bufLen) (fun _ => True) := by
  unfold parseOpenpgp
  refine Safe.bind (tag2_safe h _ _ _) (fun o0 h0 => ?_)
  refine Safe.bind (lenAt_safe h _ h0 _) (fun q hq => ?_)
  refine Safe.ite (fun _ => Safe.throw) (fun _ => ?_)
  refine Safe.ite (fun _ => ?_) (fun _ => ?_)
  · refine Safe.bind (tagLen_safe h _ _) (fun q1 _ => ?_)
    refine Safe.ite (fun _ => Safe.throw) (fun _ => ?_)
    refine Safe.bind (tagLen_safe h _ _) (fun q2 _ => ?_)
    refine Safe.ite (fun _ => Safe.throw) (fun _ => ?_)
    refine Safe.bind (tagLen_safe h _ _) (fun q3 _ => ?_)
    refine Safe.ite (fun _ => Safe.throw) (fun _ => ?_)
    refine Safe.bind (tagLen_safe h _ _) (fun q4 _ => ?_)
    refine Safe.ite (fun _ => Safe.throw) (fun _ => ?_)
    refine Safe.bind (tagLen_safe h _ _) (fun q5 _ => ?_)
    refine Safe.ite (fun _ => Safe.throw) (fun _ => ?_)
    refine Safe.bind (tagLen_safe h _ _) (fun q6 _ => ?_)
    refine Safe.ite (fun _ => Safe.throw) (fun _ => ?_)
    refine Safe.bind (tag2_safe h _ _ _) (fun o1 h1 => ?_)
    refine Safe.bind (lenAt_safe h _ h1 _) (fun q7 h7 => ?_)
    refine Safe.ite (fun _ => Safe.throw) (fun hl => ?_)
    refine Safe.ite (fun _ => Safe.throw) (fun hb => ?_)
    have hl : q7.1 = ty.priv * 2 + q4.1 + q5.1 + q6.1 + E_LENGTH := by simpa using hl
    refine Safe.bind (Safe.rdRange (by omega)) (fun _ _ => ?_)
    refine Safe.bind (Safe.rdRange (by omega)) (fun _ _ => ?_)
    refine Safe.bind (Safe.rdRange (by omega)) (fun _ _ => ?_)
    refine Safe.bind (Safe.rdRange (by omega)) (fun _ _ => ?_)
    refine Safe.bind (Safe.rdRange (by omega)) (fun _ _ => ?_)
    refine Safe.bind (Safe.rdRange (by omega)) (fun _ _ => ?_)
    refine Safe.ite (fun _ => Safe.throw) (fun _ => ?_)
    exact Safe.pure trivial
  · refine Safe.bind (tagLen_safe h _ _) (fun q1 h1 => ?_)
    refine Safe.ite (fun _ => Safe.throw) (fun _ => ?_)
    refine Safe.bind (optPub_safe h _ _ _) (fun pubLen _ => ?_)
    refine Safe.bind (tag2_safe h _ _ _) (fun o1 h1 => ?_)
    refine Safe.bind (lenAt_safe h _ h1 _) (fun q7 h7 => ?_)
    refine Safe.ite (fun _ => Safe.throw) (fun hl => ?_)
    refine Safe.ite (fun _ => Safe.throw) (fun hb => ?_)
    refine Safe.bind (Safe.rdRange (by omega)) (fun _ _ => ?_)
    refine Safe.ite (fun _ => Safe.throw) (fun _ => ?_)
    refine Safe.ite (fun _ => Safe.throw) (fun _ => ?_)
    exact Safe.pure trivial
end


theorem liftM_ok {α : Type} (a : α) : (liftM (Except.ok a : C α) : P α) = pure a := rfl

theorem rd_drop (mem : Bytes) (k i : Nat) : rd (mem.drop k) i = rd mem (k + i) := by
  simp [rd, List.getElem?_drop]

theorem tlvLen_drop (mem : Bytes) (k off len : Nat) :
    tlvLen (mem.drop k) off len = tlvLen mem (k + off) len := by
  unfold tlvLen
  simp only [rd_drop, Nat.add_assoc]

theorem rsaComponent_enc {mem pre d l rest : Bytes} {priv off : Nat} {i : Byte}
    (hm : mem = pre ++ (i :: (l ++ (d ++ rest)))) (ho : off = pre.length)
    (hl : LenEnc d.length l) (hd : d.length ≤ priv) :
    rsaComponent mem priv i off
      = pure (rightAligned priv d, (pre ++ (i :: (l ++ d))).length) := by
  have hlen : mem.length = pre.length + (1 + (l.length + (d.length + rest.length))) := by
    rw [hm]; simp; omega
  have h1 : rd mem off = .ok i := rd_at hm ho
  have h2 : tlvLen mem (off + 1) (mem.length - (off + 1)) = .ok (some (d.length, l.length)) :=
    tlvLen_enc hl (pre := pre ++ [i]) (rest := d ++ rest) (by rw [hm]; simp)
      (by rw [ho]; simp) (by omega)
  have h3 : rdRange mem (off + 1 + l.length) d.length = .ok d :=
    rdRange_at (pre := pre ++ (i :: l)) (rest := rest) (by rw [hm]; simp)
      (by rw [ho]; simp; omega) rfl
  unfold rsaComponent
  rw [if_neg (by omega), h1]
  simp only [liftM_ok, pure_bind, bne_self_eq_false, Bool.false_eq_true, if_false, h2]
  rw [if_neg (by omega)]
  simp only [pure_bind, h3, liftM_ok]
  congr 2
  simp [ho]; omega

theorem tagLen_enc {mem pre l rest : Bytes} {start bufLen off n : Nat} {t : Byte}
    (hm : mem = pre ++ (t :: (l ++ rest))) (ho : start + off = pre.length)
    (hl : LenEnc n l) (hb : start + bufLen = mem.length) (hn : n ≤ rest.length) :
    tagLen mem start bufLen off t = pure (n, off + 1 + l.length) := by
  have hlen : mem.length = pre.length + (1 + (l.length + rest.length)) := by
    rw [hm]; simp; omega
  have hll : 1 ≤ l.length := by cases hl <;> simp
  have h1 : rd mem (start + off) = .ok t := rd_at hm ho
  have h2 : tlvLen mem (start + (off + 1)) (bufLen - (off + 1)) = .ok (some (n, l.length)) :=
    tlvLen_enc hl (pre := pre ++ [t]) (rest := rest) (by rw [hm]; simp)
      (by simp; omega) (by omega)
  unfold tagLen
  rw [if_neg (by omega), h1]
  simp only [liftM_ok, pure_bind, bne_self_eq_false, Bool.false_eq_true, if_false, h2]

theorem tag2_enc {mem pre rest : Bytes} {start bufLen off : Nat} {a b : Byte}
    (hm : mem = pre ++ (a :: b :: rest)) (ho : start + off = pre.length)
    (hb : start + bufLen = mem.length) (hr : 1 ≤ rest.length) :
    tag2 mem start bufLen off a b = pure (off + 2) := by
  have hlen : mem.length = pre.length + (2 + rest.length) := by
    rw [hm]; simp; omega
  have h1 : rd mem (start + off) = .ok a := rd_at hm ho
  have h2 : rd mem (start + off + 1) = .ok b :=
    rd_at (pre := pre ++ [a]) (rest := rest) (by rw [hm]; simp) (by simp [ho])
  unfold tag2
  rw [if_neg (by omega), h1]
  simp only [liftM_ok, pure_bind, bne_self_eq_false, Bool.false_eq_true, if_false, h2]

theorem lenAt_enc {mem pre l rest : Bytes} {start bufLen off n : Nat} {e : KErr}
    (hm : mem = pre ++ (l ++ rest)) (ho : start + off = pre.length)
    (hl : LenEnc n l) (hb : start + bufLen = mem.length) (hn : n ≤ rest.length) :
    lenAt mem start bufLen off e = pure (n, off + l.length) := by
  have hlen : mem.length = pre.length + (l.length + rest.length) := by
    rw [hm]; simp
  have h2 : tlvLen mem (start + off) (bufLen - off) = .ok (some (n, l.length)) :=
    tlvLen_enc hl hm (by omega) (by omega)
  unfold lenAt
  simp only [liftM_ok, pure_bind, h2]

theorem polByte : ∀ v : Byte, (1 ≤ v ∧ v ≤ 3) → (decide (v > 3) || decide (v < 1)) = false := by
  decide +kernel

theorem polByte' : ∀ v : Byte, (decide (v > 3) || decide (v < 1)) = false → (1 ≤ v ∧ v ≤ 3) := by
  decide +kernel

theorem policies_enc (k : KeyMat) (l : List HostPolicy) (h : ∀ p ∈ l, p.valid) :
    policies k (l.flatMap HostPolicy.enc)
      = .ok (.ok { k with pinPolicy := pinAfter k.pinPolicy l,
                          touchPolicy := touchAfter k.touchPolicy l }) := by
  induction l generalizing k with
  | nil => rfl
  | cons p l ih =>
    have hv := h p (by simp)
    have hl : ∀ q ∈ l, q.valid := fun q hq => h q (by simp [hq])
    cases p with
    | pin v =>
      have hv' : (decide (v > 3) || decide (v < 1)) = false := polByte v hv
      simp only [List.flatMap_cons, HostPolicy.enc, List.cons_append, List.nil_append, policies]
      simp only [beq_self_eq_true, if_true, bne_self_eq_false, Bool.false_eq_true, if_false, hv', ih _ hl]
      rfl
    | touch v =>
      have hv' : (decide (v > 3) || decide (v < 1)) = false := polByte v hv
      have : ((0xAB : Byte) == 0xAA) = false := by decide
      simp only [List.flatMap_cons, HostPolicy.enc, List.cons_append, List.nil_append, policies]
      simp only [this, beq_self_eq_true, if_true, bne_self_eq_false, Bool.false_eq_true, if_false, hv', ih _ hl]
      rfl

theorem rightAligned_padded {size : Nat} {d : Bytes} (h : d.length ≤ size) :
    Padded size d (rightAligned size d) :=
  ⟨by simp [rightAligned]; omega, _, rfl⟩

/-- The ways a policy list can be cut short. -/
def cut : List Bytes := [[0xAA], [0xAB], [0xAA, 0x01], [0xAB, 0x01]]

theorem policies_oob_of (b : Bytes) (hb : Policies b) (tail : Bytes) (ht : tail ∈ cut) :
    ∀ k : KeyMat, policies k (b ++ tail) = .error .oob := by
  induction hb with
  | nil =>
    intro k
    simp [cut] at ht
    rcases ht with rfl | rfl | rfl | rfl <;> rfl
  | cons h _ ih =>
    intro k
    cases h with
    | pin v hv =>
      simp only [List.cons_append, List.nil_append, policies]
      simp only [beq_self_eq_true, if_true, bne_self_eq_false, Bool.false_eq_true, if_false,
        polByte v hv, ih]
    | touch v hv =>
      have : ((0xAB : Byte) == 0xAA) = false := by decide
      simp only [List.cons_append, List.nil_append, policies]
      simp only [this, beq_self_eq_true, if_true, bne_self_eq_false, Bool.false_eq_true, if_false,
        polByte v hv, ih]

theorem policies_oob_inv : ∀ (n : Nat) (b : Bytes), b.length ≤ n → ∀ k : KeyMat, ∀ u,
    policies k b = .error u → ∃ pre tail, b = pre ++ tail ∧ Policies pre ∧ tail ∈ cut := by
  intro n
  induction n with
  | zero =>
    intro b hb k u h
    have : b = [] := List.length_eq_zero_iff.mp (by omega)
    subst this; simp [policies] at h
  | succ n ih =>
    intro b hb k u h
    rcases b with _ | ⟨t, rest⟩
    · simp [policies] at h
    · unfold policies at h
      split at h
      · next ht =>
        have ht : t = 0xAA := by simpa using ht
        subst ht
        rcases rest with _ | ⟨l, _ | ⟨v, rest⟩⟩
        · exact ⟨[], [0xAA], rfl, .nil, by simp [cut]⟩
        · simp only at h
          split at h
          · simp at h
          · next hl =>
            have hl : l = 1 := by simpa using hl
            subst hl
            exact ⟨[], [0xAA, 1], rfl, .nil, by simp [cut]⟩
        · simp only at h
          split at h
          · simp at h
          · next hl =>
            have hl : l = 1 := by simpa using hl
            subst hl
            split at h
            · simp at h
            · next hv =>
              obtain ⟨pre, tail, e, hp, htl⟩ := ih rest (by simp at hb; omega) _ _ h
              refine ⟨[0xAA, 1, v] ++ pre, tail, by simp [e], .cons (.pin v (polByte' v ?_)) hp, htl⟩
              simpa using hv
      · split at h
        · next ht =>
          have ht : t = 0xAB := by simpa using ht
          subst ht
          rcases rest with _ | ⟨l, _ | ⟨v, rest⟩⟩
          · exact ⟨[], [0xAB], rfl, .nil, by simp [cut]⟩
          · simp only at h
            split at h
            · simp at h
            · next hl =>
              have hl : l = 1 := by simpa using hl
              subst hl
              exact ⟨[], [0xAB, 1], rfl, .nil, by simp [cut]⟩
          · simp only at h
            split at h
            · simp at h
            · next hl =>
              have hl : l = 1 := by simpa using hl
              subst hl
              split at h
              · simp at h
              · next hv =>
                obtain ⟨pre, tail, e, hp, htl⟩ := ih rest (by simp at hb; omega) _ _ h
                refine ⟨[0xAB, 1, v] ++ pre, tail, by simp [e], .cons (.touch v (polByte' v ?_)) hp, htl⟩
                simpa using hv
        · simp at h

end Verif.Key
