import Verif.Lemmas.CtapEnc
import Verif.Spec.CtapResp
/-
C90: the messages of the FIDO applet stay inside their buffer and say what the command answered.
-/
namespace Verif.Ctap.Enc
open Verif.Spec.Cbor (Val be Decodes)
open Verif.Spec.Resp

/-! ### Pieces with bounds on their length -/

/-- The calls write the item, in at least `lo` and at most `hi` bytes. -/
def PN (lo hi : Nat) (ts : List Tok) (v : Val) : Prop := ∃ b, Piece ts b v ∧ lo ≤ b.length ∧ b.length ≤ hi
/-- The same for the entries of a map. -/
def QN (n lo hi : Nat) (ts : List Tok) (l : List (Val × Val)) : Prop := ∃ b, Pairs n ts b l ∧ lo ≤ b.length ∧ b.length ≤ hi
/-- The same for the elements of an array. -/
def SN (n lo hi : Nat) (ts : List Tok) (l : List Val) : Prop := ∃ b, Seq n ts b l ∧ lo ≤ b.length ∧ b.length ≤ hi

theorem QN.append {n n' lo lo' hi hi' ts ts' l l'} (h : QN n lo hi ts l) (h' : QN n' lo' hi' ts' l') :
    QN (n + n') (lo + lo') (hi + hi') (ts ++ ts') (l ++ l') := by
  obtain ⟨b, p, h1, h2⟩ := h
  obtain ⟨b', p', h1', h2'⟩ := h'
  exact ⟨_, p.append p', by simp; omega, by simp; omega⟩

theorem SN.append {n n' lo lo' hi hi' ts ts' l l'} (h : SN n lo hi ts l) (h' : SN n' lo' hi' ts' l') :
    SN (n + n') (lo + lo') (hi + hi') (ts ++ ts') (l ++ l') := by
  obtain ⟨b, p, h1, h2⟩ := h
  obtain ⟨b', p', h1', h2'⟩ := h'
  exact ⟨_, p.append p', by simp; omega, by simp; omega⟩

theorem PN.pair {lo lo' hi hi' ts ts' k v} (h : PN lo hi ts k) (h' : PN lo' hi' ts' v) :
    QN 1 (lo + lo') (hi + hi') (ts ++ ts') [(k, v)] := by
  obtain ⟨b, p, h1, h2⟩ := h
  obtain ⟨b', p', h1', h2'⟩ := h'
  exact ⟨_, Pairs.one p p', by simp; omega, by simp; omega⟩

theorem PN.one {lo hi ts v} (h : PN lo hi ts v) : SN 1 lo hi ts [v] := by
  obtain ⟨b, p, h⟩ := h
  exact ⟨b, Seq.one p, h⟩

theorem PN.weaken {lo lo' hi hi' ts v} (h : PN lo hi ts v) (h1 : lo' ≤ lo) (h2 : hi ≤ hi') : PN lo' hi' ts v := by
  obtain ⟨b, p, h⟩ := h
  exact ⟨b, p, by omega, by omega⟩

theorem QN.field {α : Type} {o : Option α} {f : α → Val} {k : Val} {ts : List Tok} {hi : Nat}
    (h : ∀ a, o = some a → QN 1 0 hi ts [(k, f a)]) :
    QN (if o.isSome then 1 else 0) 0 hi (cond o.isSome ts) (field k (o.map f)) := by
  cases o with
  | none => exact ⟨[], Pairs.nil, by simp, by simp⟩
  | some a => exact h a rfl

theorem QN.map {n lo hi ts l} (h : QN n lo hi ts l) (hn : n < 24) : PN (1 + lo) (1 + hi) (.map n :: (ts ++ [.close])) (.map l) := by
  obtain ⟨b, p, h1, h2⟩ := h
  have : (head 5 n).length = 1 := by rw [length_head, if_pos hn]
  exact ⟨_, piece_map p (by omega), by simp; omega, by simp; omega⟩

theorem SN.arr {n lo hi ts l} (h : SN n lo hi ts l) (hn : n < 24) : PN (1 + lo) (1 + hi) (.arr n :: (ts ++ [.close])) (.arr l) := by
  obtain ⟨b, p, h1, h2⟩ := h
  have : (head 4 n).length = 1 := by rw [length_head, if_pos hn]
  exact ⟨_, piece_arr p (by omega), by simp; omega, by simp; omega⟩

theorem length_intHead {v : Int} (h : -2 ^ 32 ≤ v) (h' : v < 2 ^ 32) : (intHead v).length = intSize v := by
  unfold intHead intSize
  by_cases hv : 0 ≤ v
  · simp only [if_pos hv, length_head]
    have : v.toNat < 2 ^ 32 := by omega
    simp only [this, if_true]
  · simp only [if_neg hv, length_head]
    have : (-1 - v).toNat < 2 ^ 32 := by omega
    simp only [this, if_true]

theorem pn_int {v : Int} (h : -2 ^ 32 ≤ v) (h' : v < 2 ^ 32) : PN (intSize v) (intSize v) [.int v] (.int v) :=
  ⟨_, piece_int (by omega) (by omega), by rw [length_intHead h h']; exact ⟨Nat.le_refl _, Nat.le_refl _⟩⟩

theorem pn_num {n : Nat} (h : n < 2 ^ 32) : PN 1 5 [.int n] (.int n) := by
  refine (pn_int (by omega) (by omega)).weaken ?_ ?_
  · unfold intSize; dsimp only; repeat' split
    all_goals decide
  · unfold intSize; dsimp only; repeat' split
    all_goals decide

theorem pn_key (k : Int) (h : -24 ≤ k ∧ k < 24) : PN 1 1 [.int k] (.int k) := by
  have e : intSize k = 1 := by
    unfold intSize
    dsimp only
    split
    · rw [if_pos (by omega)]
    · rw [if_pos (by omega)]
  have := pn_int (v := k) (by omega) (by omega)
  rwa [e] at this

theorem pn_bytes {b : Bytes} {n : Nat} (h : b.length ≤ n) (hn : n < 65536) :
    PN (1 + b.length) ((if n < 24 then 1 else if n < 256 then 2 else 3) + n) [.bytes b] (.bytes b) := by
  refine ⟨_, piece_bytes (by omega), ?_, ?_⟩
  · have := head_pos 2 b.length; simp; omega
  · rw [List.length_append, length_head]; split <;> (repeat' split) <;> omega

theorem pn_raw {b : Bytes} {n : Nat} (h : b.length ≤ n) (hn : n < 65536) : PN 0 (3 + n) [.rawBytes b] (.bytes b) := by
  refine ⟨_, piece_rawBytes (by omega), by omega, ?_⟩
  rw [List.length_append, length_head]; split <;> (repeat' split) <;> omega

theorem pn_text {b : Bytes} {n : Nat} (h : b.length ≤ n) (hn : n < 65536) :
    PN (1 + b.length) ((if n < 24 then 1 else if n < 256 then 2 else 3) + n) [.text b] (.text b) := by
  refine ⟨_, piece_text (by omega), ?_, ?_⟩
  · have := head_pos 3 b.length; simp; omega
  · rw [List.length_append, length_head]; split <;> (repeat' split) <;> omega

theorem pn_T (s : String) (n : Nat) (h : (Parse.str s).length = n) (hn : n < 24) : PN (1 + n) (1 + n) [txt s] (T s) := by
  have := pn_text (b := Parse.str s) (n := n) (by omega) (by omega)
  rw [if_pos hn, h] at this
  exact this

theorem pn_bool (c : Bool) : PN 1 1 [.bool c] (.bool c) := ⟨_, piece_bool c, by simp, by simp⟩

theorem zText_eq {b : Bytes} (h : 0 ∉ b) : zText b = .text b := by
  unfold zText
  congr 1
  induction b with
  | nil => rfl
  | cons x b ih =>
    have hx : (x != 0) = true := by
      simp only [bne_iff_ne]
      rintro rfl
      exact h (List.mem_cons_self ..)
    rw [List.takeWhile_cons, if_pos hx, ih (fun e => h (List.mem_cons_of_mem _ e))]

/-! ### Public keys -/

theorem signed_eq (v : UInt32) : sgn v = signed v := by
  unfold sgn signed
  have : (v < 0x80000000) ↔ v.toNat < 2 ^ 31 := by rw [UInt32.lt_iff_toNat_lt]; rfl
  by_cases h : v.toNat < 2 ^ 31
  · rw [if_pos (this.mpr h), if_pos h]
  · rw [if_neg (fun e => h (this.mp e)), if_neg h]; omega

theorem signed_range (v : UInt32) : -2 ^ 31 ≤ signed v ∧ signed v < 2 ^ 31 := by
  unfold signed
  have := v.toNat_lt
  split <;> omega

theorem signed_es (v : UInt32) : signed v = -7 ↔ v = ES256 := by
  constructor
  · intro h
    apply UInt32.toNat_inj.mp
    show v.toNat = 4294967289
    unfold signed at h
    have := v.toNat_lt
    split at h <;> omega
  · rintro rfl; decide

theorem signed_ed (v : UInt32) : signed v = -8 ↔ v = EDDSA := by
  constructor
  · intro h
    apply UInt32.toNat_inj.mp
    show v.toNat = 4294967288
    unfold signed at h
    have := v.toNat_lt
    split at h <;> omega
  · rintro rfl; decide

theorem pn_ec {pub : Bytes} (h : pub.length = 64) {a c : Int} (ha : -2 ^ 32 ≤ a ∧ a < 2 ^ 32) (hc : -2 ^ 32 ≤ c ∧ c < 2 ^ 32) :
    PN (73 + intSize a + intSize c) (75 + intSize a + intSize c) (ecCalls pub a c) (coseEc a c pub) := by
  have e : (pub.drop 32).take 32 = pub.drop 32 := List.take_of_length_le (by simp; omega)
  have := QN.map ((((PN.pair (pn_key 1 (by decide)) (pn_key 2 (by decide))).append
    (PN.pair (pn_key 3 (by decide)) (pn_int ha.1 ha.2))).append (PN.pair (pn_key (-1) (by decide)) (pn_int hc.1 hc.2))).append
    (PN.pair (pn_key (-2) (by decide)) (pn_bytes (b := pub.take 32) (n := 32) (by simp; omega) (by decide))) |>.append
    (PN.pair (pn_key (-3) (by decide)) (pn_bytes (b := pub.drop 32) (n := 32) (by simp; omega) (by decide)))) (by decide)
  have e1 : (pub.take 32).length = 32 := by simp; omega
  have e2 : (pub.drop 32).length = 32 := by simp; omega
  rw [e1, e2] at this
  unfold ecCalls coseEc
  rw [e]
  exact this.weaken (by omega) (by simp; omega)

theorem pn_ed {pub : Bytes} (h : pub.length = 32) : PN 41 42 (edCalls pub) (coseOkp pub) := by
  have e : pub.take 32 = pub := List.take_of_length_le (by omega)
  have := QN.map ((((PN.pair (pn_key 1 (by decide)) (pn_key 1 (by decide))).append
    (PN.pair (pn_key 3 (by decide)) (pn_key (-8) (by decide)))).append (PN.pair (pn_key (-1) (by decide)) (pn_key 6 (by decide)))).append
    (PN.pair (pn_key (-2) (by decide)) (pn_bytes (b := pub) (n := 32) (by omega) (by decide)))) (by decide)
  rw [h] at this
  unfold edCalls coseOkp
  rw [e]
  exact this.weaken (by decide) (by decide)

theorem cose_ok {cap : Nat} {ts : List Tok} {b data : Bytes} {v : Val} (h : Piece ts b v) (hc : b.length ≤ cap) (hd : data.length ≤ b.length) :
    cose cap ts data = (b, b.length) := by
  unfold cose
  rw [h.write hc]
  simp [List.drop_eq_nil_of_le hd]

/-- The configured identifiers for SM2 are short enough. -/
def Short (d : Dev) : Prop := intSize (signed d.sm2.algo) + intSize (signed d.curve) ≤ 5

theorem attKey_ok {d : Dev} (hl : Lib d) {alg : UInt32} {pri : Bytes} (hs : alg = ES256 ∨ alg = EDDSA ∨ Short d) :
    ∃ b ts, attKey d alg pri = (b, b.length) ∧ Piece ts b (coseKey d alg (d.pub alg pri)) ∧ 41 ≤ b.length ∧ b.length ≤ 80 := by
  have big : ES256 ≠ EDDSA := by decide
  unfold attKey coseKey
  simp only [signed_es, signed_ed]
  by_cases h1 : alg = ES256
  · subst h1
    obtain ⟨b, p, h, h'⟩ := pn_ec (hl.ec ES256 pri big) (a := -7) (c := 1) (by decide) (by decide)
    have e1 : intSize (-7) = 1 := by decide
    have e2 : intSize 1 = 1 := by decide
    rw [e1, e2] at h h'
    refine ⟨b, _, ?_, by simpa using p, by omega, by omega⟩
    simp only [if_pos]
    exact cose_ok p (by omega) (by rw [hl.ec _ _ big]; omega)
  · by_cases h2 : alg = EDDSA
    · subst h2
      obtain ⟨b, p, h, h'⟩ := pn_ed (hl.ed pri)
      refine ⟨b, _, ?_, by simpa [h1] using p, by omega, by omega⟩
      simp only [if_neg h1, if_pos]
      exact cose_ok p (by omega) (by rw [hl.ed]; omega)
    · have hs : Short d := by
        rcases hs with h | h | h
        · exact absurd h h1
        · exact absurd h h2
        · exact h
      have r1 := signed_range d.sm2.algo
      have r2 := signed_range d.curve
      obtain ⟨b, p, h, h'⟩ := pn_ec (hl.ec alg pri h2) (a := signed d.sm2.algo) (c := signed d.curve) (by omega) (by omega)
      have hs' := hs
      unfold Short at hs'
      refine ⟨b, _, ?_, by simpa [h1, h2] using p, by omega, by omega⟩
      simp only [if_neg h1, if_neg h2, signed_eq]
      exact cose_ok p (by omega) (by rw [hl.ec _ _ h2]; omega)

/-! ### Authenticator data -/

theorem be_be32 (v : UInt32) : be (be32 v) = v.toNat := by
  simp only [be32, be, List.length_cons, List.length_nil, UInt32.toNat_toUInt8, UInt32.toNat_shiftRight]
  have := v.toNat_lt
  simp
  omega

theorem testBit7 (f : Byte) : (f &&& 0x80 != 0) = f.toNat.testBit 7 := by
  revert f; decide +kernel

theorem auth_ok {d : Dev} (hl : Lib d) {a : AuthData} {pri ext : Bytes} {e : Option Val} (h32 : a.rp.length = 32)
    (hcid : ∀ cid, a.att = some cid → cid.length = 70 ∧ (Cid.alg cid = ES256 ∨ Cid.alg cid = EDDSA ∨ Short d))
    (h6 : a.flags.toNat.testBit 6 = a.att.isSome) (h7 : a.flags.toNat.testBit 7 = e.isSome)
    (hext : ∀ v, e = some v → Decodes ext v) :
    IsAuthData (authData d a pri ext) a.rp a.flags a.ctr
      (a.att.map fun cid => (cid, coseKey d (Cid.alg cid) (d.pub (Cid.alg cid) pri))) e ∧
    37 + (if a.att.isSome then 129 else 0) ≤ (authData d a pri ext).length ∧
    (authData d a pri ext).length ≤ 37 + (if a.att.isSome then 168 else 0) + (if e.isSome then ext.length else 0) := by
  unfold authData
  rw [testBit7, h7]
  cases ha : a.att with
  | none =>
    refine ⟨⟨be32 a.ctr, [], if e.isSome then ext else [], by simp, h32, rfl, be_be32 _, by rw [h6, ha]; rfl, h7, rfl, ?_⟩, ?_, ?_⟩
    · cases e with
      | none => rfl
      | some v => exact hext v rfl
    · simp [h32, be32]; omega
    · cases e <;> simp [h32, be32] <;> omega
  | some cid =>
    obtain ⟨hc, hs⟩ := hcid cid ha
    obtain ⟨b, ts, hk, p, h1, h2⟩ := attKey_ok hl (pri := pri) hs
    simp only [hk, List.take_length]
    refine ⟨⟨be32 a.ctr, modelId ++ [0, 70] ++ cid ++ b, if e.isSome then ext else [], by simp [aaguid, modelId], h32, rfl, be_be32 _,
      by rw [h6, ha]; rfl, h7, ⟨[0, 70], b, rfl, rfl, ?_, p.decodes⟩, ?_⟩, ?_, ?_⟩
    · rw [hc]; rfl
    · cases e with
      | none => rfl
      | some v => exact hext v rfl
    · simp [h32, be32, aaguid, hc]; omega
    · cases e <;> simp [h32, be32, aaguid, hc] <;> omega

/-! ### Messages -/

theorem message_ok {d : Dev} {pri : Bytes} {r : Resp} {ts : List Tok} {v : Val} {lo hi cap : Nat} (hc : calls d pri r = .ok ts)
    (h : PN lo hi ts v) (hcap : hi < cap) : ∃ b, message cap d pri r = some (0 :: b) ∧ b.length < cap ∧ Decodes b v := by
  obtain ⟨b, p, _, h2⟩ := h
  refine ⟨b, ?_, by omega, p.decodes⟩
  unfold message
  rw [hc]
  show (match write (cap - 1) ts with
    | .ok b => some (0 :: b)
    | .error .refused => some [0x12]
    | .error .overrun => none) = _
  rw [p.write (by omega)]

theorem mcOut_isSome (r : McResp) : (mcOut r).isSome = mcHasExt r := by
  obtain ⟨ad, blobOk, protect, hs, cdh, lbk⟩ := r
  cases blobOk <;> cases protect <;> cases hs <;> rfl

theorem gaOut_isSome (r : GaResp) : (gaOut r).isSome = gaHasExt r := by
  unfold gaOut gaHasExt
  cases r.blob <;> cases r.hmacSecret <;> rfl

theorem mcOut_ok (r : McResp) : ∃ ext, (if mcHasExt r then write 140 (mcExtCalls r) else .ok []) = .ok ext ∧
    (∀ v, mcOut r = some v → Decodes ext v) ∧ ext.length ≤ 42 := by
  cases hx : mcHasExt r with
  | false =>
    refine ⟨[], rfl, fun v h => ?_, by simp⟩
    have := mcOut_isSome r
    rw [h, hx] at this
    exact absurd this (by simp)
  | true =>
    have e0 : (if r.hmacSecret then 1 else 0) = if (if r.hmacSecret then some (Val.bool true) else none).isSome then 1 else 0 := by
      cases r.hmacSecret <;> rfl
    obtain ⟨b, p, _, h⟩ := QN.map (((QN.field (o := r.blobOk) (f := Val.bool) (k := T "credBlob") (ts := [txt "credBlob", .bool (r.blobOk.getD false)]) (hi := 10)
      fun a e => by
        rw [e]
        have := PN.pair (pn_T "credBlob" 8 rfl (by decide)) (pn_bool a)
        obtain ⟨b, p, _, h⟩ := this
        exact ⟨b, p, by omega, h⟩).append
      (QN.field (o := r.protect) (f := fun p => Val.int p.toNat) (k := T "credProtect") (ts := [txt "credProtect", .int (r.protect.getD 0).toNat]) (hi := 17)
      fun a e => by
        rw [e]
        have := PN.pair (pn_T "credProtect" 11 rfl (by decide)) (pn_num (n := a.toNat) (by have := a.toNat_lt; omega))
        obtain ⟨b, p, _, h⟩ := this
        exact ⟨b, p, by omega, h⟩)).append
      (QN.field (o := if r.hmacSecret then some () else none) (f := fun _ => Val.bool true) (k := T "hmac-secret") (ts := [txt "hmac-secret", .bool true]) (hi := 13)
      fun a e => by
        have := PN.pair (pn_T "hmac-secret" 11 rfl (by decide)) (pn_bool true)
        obtain ⟨b, p, _, h⟩ := this
        exact ⟨b, p, by omega, h⟩)) (by (repeat' split) <;> decide)
    refine ⟨b, ?_, fun v hv => ?_, by omega⟩
    · refine Piece.write (v := _) (p.cast ?_ rfl rfl) (by omega)
      unfold mcExtCalls
      cases r.hmacSecret <;> cases r.protect <;> cases r.blobOk <;> rfl
    · have : v = Val.map (field (T "credBlob") (r.blobOk.map .bool) ++ field (T "credProtect") (r.protect.map fun p => .int p.toNat) ++
          field (T "hmac-secret") (((if r.hmacSecret then some () else none) : Option Unit).map fun _ => .bool true)) := by
        unfold mcOut at hv
        revert hx hv
        unfold mcHasExt
        cases r.hmacSecret <;> cases r.protect <;> cases r.blobOk <;> simp [unlessEmpty, field] <;> exact fun h => h.symm
      subst this
      exact p.decodes

theorem QN.loosen {n lo hi hi' ts l} (h : QN n lo hi ts l) (h2 : hi ≤ hi') : QN n 0 hi' ts l := by
  obtain ⟨b, p, h⟩ := h
  exact ⟨b, p, by omega, by omega⟩

theorem gaOut_ok (r : GaResp) (hb : ∀ b, r.blob = some b → b.length ≤ 32) (hh : ∀ b, r.hmacSecret = some b → b.length ≤ 80) :
    ∃ ext, (if gaHasExt r then write 140 (gaExtCalls r) else .ok []) = .ok ext ∧
    (∀ v, gaOut r = some v → Decodes ext v) ∧ ext.length ≤ 140 := by
  cases hx : gaHasExt r with
  | false =>
    refine ⟨[], rfl, fun v h => ?_, by simp⟩
    have := gaOut_isSome r
    rw [h, hx] at this
    exact absurd this (by simp)
  | true =>
    obtain ⟨b, p, _, h⟩ := QN.map ((QN.field (o := r.blob) (f := Val.bytes) (k := T "credBlob") (ts := [txt "credBlob", .bytes (r.blob.getD [])]) (hi := 43)
      fun a e => by
        have hl := hb a e
        rw [e]
        exact (PN.pair (pn_T "credBlob" 8 rfl (by decide)) (pn_bytes hl (by decide))).loosen (by decide)).append
      (QN.field (o := r.hmacSecret) (f := Val.bytes) (k := T "hmac-secret") (ts := [txt "hmac-secret", .bytes (r.hmacSecret.getD [])]) (hi := 94)
      fun a e => by
        have hl := hh a e
        rw [e]
        exact (PN.pair (pn_T "hmac-secret" 11 rfl (by decide)) (pn_bytes hl (by decide))).loosen (by decide))) (by (repeat' split) <;> decide)
    refine ⟨b, ?_, fun v hv => ?_, by omega⟩
    · refine Piece.write (v := _) (p.cast ?_ rfl rfl) (by omega)
      unfold gaExtCalls
      simp
    · have : v = Val.map (field (T "credBlob") (r.blob.map .bytes) ++ field (T "hmac-secret") (r.hmacSecret.map .bytes)) := by
        unfold gaOut at hv
        revert hx hv
        unfold gaHasExt
        cases r.hmacSecret <;> cases r.blob <;> simp [unlessEmpty, field] <;> exact fun h => h.symm
      subst this
      exact p.decodes

/-- A registration, up to the certificate. -/
theorem mc_ok {d : Dev} (hl : Lib d) {r : McResp} {pri ext : Bytes} {lo : Nat} {hi : Nat}
    (ha : lo ≤ (authData d r.ad pri ext).length ∧ (authData d r.ad pri ext).length ≤ hi) (hhi : hi < 256) (hcert : d.cert.length ≤ 1152)
    (hlbk : ∀ k, r.lbk = some k → k.length = 32) :
    PN 0 (143 + hi + d.cert.length) (mcCalls d r pri ext)
      (mcVal (authData d r.ad pri ext) (d.attest (authData d r.ad pri ext ++ r.cdh)) d.cert r.lbk) := by
  have e : d.cert.take 1152 = d.cert := List.take_of_length_le hcert
  have pc : PN 0 (3 + d.cert.length) [.bytes [], .cert d.cert] (.bytes d.cert) :=
    ⟨_, piece_cert (by omega), by omega, by simp [head59]; omega⟩
  have p3 := QN.map (((PN.pair (pn_T "alg" 3 rfl (by decide)) (pn_key (-7) (by decide))).append
    (PN.pair (pn_T "sig" 3 rfl (by decide)) (pn_bytes (hl.att (authData d r.ad pri ext ++ r.cdh)) (by decide)))).append
    (PN.pair (pn_T "x5c" 3 rfl (by decide)) ((pc.one).arr (by decide)))) (by decide)
  have pl : QN (if r.lbk.isSome then 1 else 0) 0 35 (cond r.lbk.isSome [.int 5, .bytes (r.lbk.getD [])]) (field (.int 5) (r.lbk.map .bytes)) :=
    QN.field (o := r.lbk) (f := Val.bytes) fun a e => by
      have := hlbk a e
      rw [e]
      exact (PN.pair (pn_key 5 (by decide)) (pn_bytes (b := a) (n := 32) (by omega) (by decide))).loosen (by decide)
  have := QN.map ((((PN.pair (pn_key 1 (by decide)) (pn_T "packed" 6 rfl (by decide))).append
    (PN.pair (pn_key 2 (by decide)) (pn_bytes ha.2 (by omega)))).append (PN.pair (pn_key 3 (by decide)) p3)).append pl)
    (by split <;> decide)
  obtain ⟨b, p, _, h⟩ := this
  refine ⟨b, p.cast ?_ rfl rfl, by omega, ?_⟩
  · unfold mcCalls
    rw [e]
    simp
  · have e1 : (if hi < 24 then 1 else if hi < 256 then 2 else 3) ≤ 2 := by (repeat' split) <;> omega
    rw [show (if (72 : Nat) < 24 then 1 else if (72 : Nat) < 256 then 2 else 3) = 2 from rfl] at h
    omega

theorem ga_ok {d : Dev} (hl : Lib d) {r : GaResp} {ext : Bytes} (hs : Sized (.ga r)) (hx : (authData d r.ad [] ext).length ≤ 177) :
    PN 0 700 (gaCalls d r ext) (gaVal r (authData d r.ad [] ext) (d.sign r.alg r.key (authData d r.ad [] ext ++ r.cdh))) := by
  obtain ⟨h32, hat, hcid, h6, h7, hlbk, hblob, hhs, huid, hui, hcnt⟩ := hs
  have pd := QN.map ((PN.pair (pn_T "id" 2 rfl (by decide)) (pn_bytes (b := r.cid) (n := 70) (by omega) (by decide))).append
    (PN.pair (pn_T "type" 4 rfl (by decide)) (pn_T "public-key" 10 rfl (by decide)))) (by decide)
  have pu : QN (if r.userId.isSome then 1 else 0) 0 230 (cond r.userId.isSome (
      [.int 4, .map (if r.userInfo.isSome then 3 else 1), txt "id", .bytes (r.userId.getD [])] ++
      cond r.userInfo.isSome [txt "name", zText (r.userInfo.getD ([], [])).1, txt "displayName", zText (r.userInfo.getD ([], [])).2] ++
      [.close])) (field (.int 4) (r.userId.map fun id => userVal id r.userInfo)) :=
    QN.field (o := r.userId) (f := fun id => userVal id r.userInfo) fun a e => by
      have hl := huid a e
      rw [e]
      have pid := PN.pair (pn_T "id" 2 rfl (by decide)) (pn_bytes hl (by decide))
      cases hu : r.userInfo with
      | none => exact (PN.pair (pn_key 4 (by decide)) (pid.map (by decide))).loosen (by decide)
      | some p =>
        obtain ⟨l1, l2, z1, z2, _⟩ := hui p hu
        have := (PN.pair (pn_key 4 (by decide)) (((pid.append (PN.pair (pn_T "name" 4 rfl (by decide)) (pn_text l1 (by decide)))).append
          (PN.pair (pn_T "displayName" 11 rfl (by decide)) (pn_text l2 (by decide)))).map (by decide))).loosen (hi' := 230) (by decide)
        simp only [Option.isSome_some, Option.getD_some, cond, if_true, zText_eq z1, zText_eq z2]
        exact this
  have pn : QN (if r.count.isSome then 1 else 0) 0 6 (cond r.count.isSome [.int 5, .int (r.count.getD 0)]) (field (.int 5) (r.count.map fun (n : Nat) => .int n)) :=
    QN.field (o := r.count) (f := fun (n : Nat) => Val.int n) fun a e => by
      have := hcnt a e
      rw [e]
      exact (PN.pair (pn_key 5 (by decide)) (pn_num (n := a) (by omega))).loosen (by decide)
  have pl : QN (if r.lbk.isSome then 1 else 0) 0 35 (cond r.lbk.isSome [.int 7, .bytes (r.lbk.getD [])]) (field (.int 7) (r.lbk.map .bytes)) :=
    QN.field (o := r.lbk) (f := Val.bytes) fun a e => by
      have := hlbk a e
      rw [e]
      exact (PN.pair (pn_key 7 (by decide)) (pn_bytes (b := a) (n := 32) (by omega) (by decide))).loosen (by decide)
  have := QN.map ((((((PN.pair (pn_key 1 (by decide)) pd).append (PN.pair (pn_key 2 (by decide)) (pn_bytes hx (by decide)))).append
    (PN.pair (pn_key 3 (by decide)) (pn_bytes (hl.sig r.alg r.key (authData d r.ad [] ext ++ r.cdh)) (by decide)))).append pu).append pn).append pl)
    (by (repeat' split) <;> decide)
  obtain ⟨b, p, _, h⟩ := this
  refine ⟨b, p.cast ?_ rfl rfl, by omega, ?_⟩
  · unfold gaCalls
    simp
  · rw [show (if (72 : Nat) < 24 then 1 else if (72 : Nat) < 256 then 2 else 3) = 2 from rfl,
      show (if (70 : Nat) < 24 then 1 else if (70 : Nat) < 256 then 2 else 3) = 2 from rfl,
      show (if (177 : Nat) < 24 then 1 else if (177 : Nat) < 256 then 2 else 3) = 2 from rfl] at h
    omega

theorem pn_alg {v : Int} (h : -2 ^ 32 ≤ v) (h' : v < 2 ^ 32) : PN 0 (22 + intSize v) (algCalls v) (algVal v) :=
  (QN.map ((PN.pair (pn_T "alg" 3 rfl (by decide)) (pn_int h h')).append
    (PN.pair (pn_T "type" 4 rfl (by decide)) (pn_T "public-key" 10 rfl (by decide)))) (by decide)).weaken (by omega) (by omega)

theorem intSize_le (v : Int) : intSize v ≤ 5 := by
  unfold intSize; dsimp only; (repeat' split) <;> decide

theorem info_ok (d : Dev) (pin : Bool) : PN 0 500 (infoCalls d pin) (infoVal d pin) := by
  have t (s : String) (n : Nat) (h : (Parse.str s).length = n := by rfl) (hn : n < 24 := by decide) := pn_T s n h hn
  have k (v : Int) (h : -24 ≤ v ∧ v < 24 := by decide) := pn_key v h
  have r := signed_range d.sm2.algo
  have i5 := intSize_le (signed d.sm2.algo)
  have p1 := (PN.pair (k 1) (SN.arr (((t "U2F_V2" 6).one.append (t "FIDO_2_0" 8).one).append (t "FIDO_2_1" 8).one) (by decide)))
  have p2 := (PN.pair (k 2) (SN.arr ((((t "credBlob" 8).one.append (t "credProtect" 11).one).append (t "hmac-secret" 11).one).append
    (t "largeBlobKey" 12).one) (by decide)))
  have p3 := (PN.pair (k 3) (pn_bytes (b := aaguid) (n := 16) (by decide) (by decide)))
  have p4 := (PN.pair (k 4) (QN.map (((((((t "rk" 2).pair (pn_bool true)).append ((t "credMgmt" 8).pair (pn_bool true))).append
    ((t "clientPin" 9).pair (pn_bool pin))).append ((t "largeBlobs" 10).pair (pn_bool true))).append
    ((t "pinUvAuthToken" 14).pair (pn_bool true))).append ((t "makeCredUvNotRqd" 16).pair (pn_bool true))) (by decide)))
  have p5 := PN.pair (k 5) (pn_num (n := 1300) (by decide))
  have p6 := PN.pair (k 6) (SN.arr ((k 1).one.append (k 2).one) (by decide))
  have p7 := PN.pair (k 7) (k 8)
  have p8 := PN.pair (k 8) (pn_num (n := 70) (by decide))
  have p9 := PN.pair (k 9) (SN.arr ((t "nfc" 3).one.append (t "usb" 3).one) (by decide))
  have ps : SN (if d.sm2.enabled then 1 else 0) 0 27 (cond d.sm2.enabled (algCalls (sgn d.sm2.algo)))
      (if d.sm2.enabled then [algVal (signed d.sm2.algo)] else []) := by
    cases d.sm2.enabled
    · exact ⟨[], Seq.nil, by simp, by simp⟩
    · rw [signed_eq]
      exact ((pn_alg (by omega) (by omega)).weaken (by omega) (by omega)).one
  have pa := PN.pair (k 10) (SN.arr (((pn_alg (v := -7) (by decide) (by decide)).one.append (pn_alg (v := -8) (by decide) (by decide)).one).append ps)
    (by split <;> decide))
  have pb := PN.pair (k 11) (pn_num (n := 4096) (by decide))
  have pe := PN.pair (k 14) (pn_num (n := 201) (by decide))
  have pf := PN.pair (k 15) (pn_num (n := 32) (by decide))
  have := QN.map ((((((((((((p1.append p2).append p3).append p4).append p5).append p6).append p7).append p8).append p9).append pa).append pb).append
    pe).append pf) (by decide)
  obtain ⟨b, p, _, h⟩ := this
  refine ⟨b, p.cast ?_ rfl rfl, Nat.zero_le _, Nat.le_trans h (by decide)⟩
  unfold infoCalls algCalls
  cases d.sm2.enabled <;> simp [cond, algCalls]

theorem key_ok {pub : Bytes} (h : pub.length = 64) : PN 0 80 (keyCalls pub) (.map [(.int 1, coseEc (-25) 1 pub)]) := by
  obtain ⟨b, p, h1, h2⟩ := pn_ec h (a := -25) (c := 1) (by decide) (by decide)
  have e1 : intSize (-25) = 2 := by decide
  have e2 : intSize 1 = 1 := by decide
  rw [e1, e2] at h1 h2
  have e : ecCose pub (-25) 1 = (b, b.length) := cose_ok p (by omega) (by omega)
  obtain ⟨b', p', _, h'⟩ := QN.map (PN.pair (pn_key 1 (by decide)) ⟨b, piece_fill p, h1, h2⟩) (by decide)
  refine ⟨b', p'.cast ?_ rfl rfl, by omega, by omega⟩
  unfold keyCalls
  simp [e]

theorem rp_ok {id hash : Bytes} {total : Option Nat} (h : Sized (.rp id hash total)) :
    PN 0 120 (rpCalls id hash total) (.map ([(.int 3, .map [(T "id", .text id)]), (.int 4, .bytes hash)] ++
      field (.int 5) (total.map fun (n : Nat) => .int n))) := by
  obtain ⟨h1, h2, h3⟩ := h
  have pt : QN (if total.isSome then 1 else 0) 0 6 (cond total.isSome [.int 5, .int (total.getD 0)]) (field (.int 5) (total.map fun (n : Nat) => .int n)) :=
    QN.field (o := total) (f := fun (n : Nat) => Val.int n) fun a e => by
      have := h3 a e
      rw [e]
      exact (PN.pair (pn_key 5 (by decide)) (pn_num (n := a) (by omega))).loosen (by decide)
  obtain ⟨b, p, _, h⟩ := QN.map (((PN.pair (pn_key 3 (by decide)) (QN.map (PN.pair (pn_T "id" 2 rfl (by decide)) (pn_text h1 (by decide))) (by decide))).append
    (PN.pair (pn_key 4 (by decide)) (pn_bytes (b := hash) (n := 32) (by omega) (by decide)))).append pt) (by split <;> decide)
  refine ⟨b, p.cast ?_ rfl rfl, Nat.zero_le _, Nat.le_trans h (by decide)⟩
  unfold rpCalls
  cases total <;> rfl

theorem cmKey_ok {d : Dev} (hl : Lib d) {alg : UInt32} {pri : Bytes} (hs : alg = ES256 ∨ alg = EDDSA) :
    ∃ b ts, cmKey d alg pri = (b, b.length) ∧ Piece ts b (coseKey d alg (d.pub alg pri)) ∧ b.length ≤ 80 := by
  obtain ⟨b, ts, h, p, _, h2⟩ := attKey_ok hl (pri := pri) (hs.imp_right Or.inl)
  refine ⟨b, ts, ?_, p, h2⟩
  unfold attKey at h
  unfold cmKey
  rcases hs with rfl | rfl
  · exact h
  · exact h

theorem cred_ok {d : Dev} (hl : Lib d) {c : CmCred} (hs : Sized (.cred c)) (ha : Cid.alg c.cid = ES256 ∨ Cid.alg c.cid = EDDSA) :
    PN 0 500 (credCalls d c) (.map ([(.int 6, userVal c.user.id (some (c.user.name, c.user.disp))), (.int 7, descr c.cid),
      (.int 8, coseKey d (Cid.alg c.cid) (d.pub (Cid.alg c.cid) c.pri))] ++ field (.int 9) (c.total.map fun (n : Nat) => .int n) ++
      [(.int 10, .int c.protect.toNat)] ++ field (.int 11) (c.lbk.map .bytes))) := by
  obtain ⟨hcid, h1, h2, h3, z2, z3, ht, hlbk⟩ := hs
  obtain ⟨kb, kts, hk, kp, k2⟩ := cmKey_ok hl (pri := c.pri) ha
  have pu := PN.pair (pn_key 6 (by decide)) ((((PN.pair (pn_T "id" 2 rfl (by decide)) (pn_bytes h1 (by decide))).append
    (PN.pair (pn_T "name" 4 rfl (by decide)) (pn_text h2 (by decide)))).append
    (PN.pair (pn_T "displayName" 11 rfl (by decide)) (pn_text h3 (by decide)))).map (by decide))
  have pd := PN.pair (pn_key 7 (by decide)) (QN.map ((PN.pair (pn_T "id" 2 rfl (by decide)) (pn_bytes (b := c.cid) (n := 70) (by omega) (by decide))).append
    (PN.pair (pn_T "type" 4 rfl (by decide)) (pn_T "public-key" 10 rfl (by decide)))) (by decide))
  have pk := PN.pair (pn_key 8 (by decide)) (⟨kb, piece_fill kp, Nat.zero_le _, k2⟩ : PN 0 80 _ _)
  have pt : QN (if c.total.isSome then 1 else 0) 0 6 (cond c.total.isSome [.int 9, .int (c.total.getD 0)]) (field (.int 9) (c.total.map fun (n : Nat) => .int n)) :=
    QN.field (o := c.total) (f := fun (n : Nat) => Val.int n) fun a e => by
      have := ht a e
      rw [e]
      exact (PN.pair (pn_key 9 (by decide)) (pn_num (n := a) (by omega))).loosen (by decide)
  have pp := PN.pair (pn_key 10 (by decide)) (pn_num (n := c.protect.toNat) (by have := c.protect.toNat_lt; omega))
  have pl : QN (if c.lbk.isSome then 1 else 0) 0 35 (cond c.lbk.isSome [.int 11, .bytes (c.lbk.getD [])]) (field (.int 11) (c.lbk.map .bytes)) :=
    QN.field (o := c.lbk) (f := Val.bytes) fun a e => by
      have := hlbk a e
      rw [e]
      exact (PN.pair (pn_key 11 (by decide)) (pn_bytes (b := a) (n := 32) (by omega) (by decide))).loosen (by decide)
  obtain ⟨b, p, _, h⟩ := QN.map (((((pu.append pd).append pk).append pt).append pp).append pl) (by (repeat' split) <;> decide)
  refine ⟨b, p.cast ?_ rfl rfl, Nat.zero_le _, Nat.le_trans h (by decide)⟩
  unfold credCalls
  rw [hk, zText_eq z2, zText_eq z3]
  cases c.total <;> cases c.lbk <;> simp [cond]

/-! ### Too large a certificate -/

/-- Calls that succeed if there is room for `hi` bytes, and write at least `lo`. -/
def Pre (lo hi : Nat) (ts : List Tok) : Prop :=
  ∀ w : W, w.out.length + hi ≤ w.cap → ∃ w' : W, (∀ rest, w.run (ts ++ rest) = w'.run rest) ∧ w'.cap = w.cap ∧
    w.out.length + lo ≤ w'.out.length ∧ w'.out.length ≤ w.out.length + hi

theorem Pre.append {lo lo' hi hi' ts ts'} (h : Pre lo hi ts) (h' : Pre lo' hi' ts') : Pre (lo + lo') (hi + hi') (ts ++ ts') := by
  intro w hw
  obtain ⟨w1, r1, c1, l1, u1⟩ := h w (by omega)
  obtain ⟨w2, r2, c2, l2, u2⟩ := h' w1 (by omega)
  exact ⟨w2, fun rest => by rw [List.append_assoc, r1, r2], by omega, by omega, by omega⟩

theorem PN.pre {lo hi ts v} (h : PN lo hi ts v) : Pre lo hi ts := by
  obtain ⟨b, p, h1, h2⟩ := h
  intro w hw
  exact ⟨{ w.count with out := w.out ++ b }, fun rest => p.run w rest (by omega), rfl, by simp; omega, by simp; omega⟩

theorem pre_map (n : Nat) (hn : n < 24) : Pre 1 1 [.map n] := by
  intro w hw
  have e : (head 5 n).length = 1 := by rw [length_head, if_pos hn]
  have s1 : W.step w (.map n) = .ok { w.count with out := w.out ++ head 5 n, open' := (2 * n + 1) :: w.count.open' } := by
    simp only [W.step]
    rw [put_ok (by simp; omega)]
    rfl
  exact ⟨_, fun rest => run_cons rest s1, rfl, by simp; omega, by simp; omega⟩

theorem pre_arr (n : Nat) (hn : n < 24) : Pre 1 1 [.arr n] := by
  intro w hw
  have e : (head 4 n).length = 1 := by rw [length_head, if_pos hn]
  have s1 : W.step w (.arr n) = .ok { w.count with out := w.out ++ head 4 n, open' := (n + 1) :: w.count.open' } := by
    simp only [W.step]
    rw [put_ok (by simp; omega)]
    rfl
  exact ⟨_, fun rest => run_cons rest s1, rfl, by simp; omega, by simp; omega⟩

theorem mc_overrun {d : Dev} (hl : Lib d) {r : McResp} {pri ext : Bytes} {cap : Nat}
    (ha : 166 ≤ (authData d r.ad pri ext).length ∧ (authData d r.ad pri ext).length ≤ 250) (hcap : 500 ≤ cap)
    (hcert : cap < 197 + (d.cert.take 1152).length) : write cap (mcCalls d r pri ext) = .error .overrun := by
  have pre := ((((((((((((pre_map (3 + if r.lbk.isSome then 1 else 0) (by split <;> decide)).append (pn_key 1 (by decide)).pre).append
    (pn_T "packed" 6 rfl (by decide)).pre).append (pn_key 2 (by decide)).pre).append (pn_bytes ha.2 (by decide)).pre).append
    (pn_key 3 (by decide)).pre).append (pre_map 3 (by decide))).append (pn_T "alg" 3 rfl (by decide)).pre).append (pn_key (-7) (by decide)).pre).append
    (pn_T "sig" 3 rfl (by decide)).pre).append (pn_bytes (hl.att (authData d r.ad pri ext ++ r.cdh)) (by decide)).pre).append
    (pn_T "x5c" 3 rfl (by decide)).pre).append ((pre_arr 1 (by decide)).append (pn_bytes (b := []) (n := 0) (by decide) (by decide)).pre)
  rw [show (if (72 : Nat) < 24 then 1 else if (72 : Nat) < 256 then 2 else 3) = 2 from rfl,
    show (if (250 : Nat) < 24 then 1 else if (250 : Nat) < 256 then 2 else 3) = 2 from rfl,
    show (if (0 : Nat) < 24 then 1 else if (0 : Nat) < 256 then 2 else 3) = 1 from rfl] at pre
  obtain ⟨w', hr, hc, h1, h2⟩ := pre ⟨cap, [], []⟩ (by simp only [List.length_nil]; omega)
  have hr' := hr (.cert (d.cert.take 1152) :: (.close :: .close :: (cond r.lbk.isSome [.int 5, .bytes (r.lbk.getD [])] ++ [.close])))
  simp only [List.cons_append, List.nil_append] at hr'
  unfold write mcCalls
  simp only [List.cons_append, List.nil_append]
  rw [hr']
  simp only [List.length_nil] at h1 h2 hc
  have : W.step w' (.cert (d.cert.take 1152)) = .error .overrun := by
    simp only [W.step, W.raw]
    rw [if_neg (by simp only [List.length_dropLast, List.length_cons]; omega)]
  rw [W.run, this]
  rfl

/-! ### Property -/

theorem calls_mc {d : Dev} {pri ext : Bytes} {r : McResp} (he : (if mcHasExt r then write 140 (mcExtCalls r) else .ok []) = .ok ext) :
    calls d pri (.mc r) = .ok (mcCalls d r pri ext) := by
  unfold calls
  by_cases h : mcHasExt r = true
  · rw [if_pos h] at he
    simp only [h, he, if_true]
    rfl
  · rw [if_neg h] at he
    cases he
    simp only [h]
    rfl

theorem calls_ga {d : Dev} {pri ext : Bytes} {r : GaResp} (he : (if gaHasExt r then write 140 (gaExtCalls r) else .ok []) = .ok ext) :
    calls d pri (.ga r) = .ok (gaCalls d r ext) := by
  unfold calls
  by_cases h : gaHasExt r = true
  · rw [if_pos h] at he
    simp only [h, he, if_true]
    rfl
  · rw [if_neg h] at he
    cases he
    simp only [h]
    rfl

/-- The limits for which C90 is proved: certificates of at most 900 bytes, and of SM2 only short identifiers and no keys in
enumerations. -/
def Within (d : Dev) : Resp → Prop
  | .mc r => d.cert.length ≤ 900 ∧ ∀ cid, r.ad.att = some cid → Cid.alg cid = ES256 ∨ Cid.alg cid = EDDSA ∨ Short d
  | .cred c => Cid.alg c.cid = ES256 ∨ Cid.alg c.cid = EDDSA
  | _ => True

/-- **C90.** Within these limits, a response stays inside its buffer (1300 bytes over CTAPHID, 1340 over CCID and NFC), has the
status 0, and a host that decodes it finds what the command answered. -/
theorem C90_messages_partial (d : Dev) (hl : Lib d) (pri : Bytes) (r : Resp) (hs : Sized r) (hw : Within d r) (cap : Nat) (hc : 1300 ≤ cap) :
    ∃ b, message cap d pri r = some (0 :: b) ∧ b.length < cap ∧ Says d pri r b := by
  cases r with
  | empty =>
    refine ⟨[], ?_, by simp; omega, rfl⟩
    unfold message calls
    rfl
  | mc r =>
    obtain ⟨h32, ⟨cid, hat, hcid⟩, h6, h7, hlbk⟩ := hs
    obtain ⟨hcert, halg⟩ := hw
    obtain ⟨ext, he, hd, hx⟩ := mcOut_ok r
    have ha := auth_ok hl (a := r.ad) (pri := pri) (ext := ext) (e := mcOut r) h32
      (fun c e => ⟨by rw [hat] at e; cases e; exact hcid, halg c e⟩) (by rw [h6, hat]; rfl) h7 hd
    obtain ⟨hA, lo, hi⟩ := ha
    rw [hat] at lo hi
    have hi' : (authData d r.ad pri ext).length ≤ 247 := by
      simp only [Option.isSome_some, if_true] at hi
      split at hi <;> omega
    obtain ⟨b, hb, hlen, hdec⟩ := message_ok (cap := cap) (d := d) (pri := pri) (r := .mc r) (ts := mcCalls d r pri ext)
      (calls_mc he) (mc_ok hl ⟨lo, hi'⟩ (by decide) (by omega) hlbk) (by omega)
    exact ⟨b, hb, hlen, _, hdec, hA⟩
  | ga r =>
    obtain ⟨h32, hat, hcid, h6, h7, hlbk, hblob, hhs, huid, hui, hcnt⟩ := id hs
    obtain ⟨ext, he, hd, hx⟩ := gaOut_ok r hblob hhs
    obtain ⟨hA, lo, hi⟩ := auth_ok hl (a := r.ad) (pri := []) (ext := ext) (e := gaOut r) h32
      (fun c e => by rw [hat] at e; cases e) (by rw [h6, hat]; rfl) h7 hd
    rw [hat] at hi
    have hi' : (authData d r.ad [] ext).length ≤ 177 := by
      simp only [Option.isSome_none, Bool.false_eq_true, if_false] at hi
      split at hi <;> omega
    obtain ⟨b, hb, hlen, hdec⟩ := message_ok (cap := cap) (d := d) (pri := pri) (r := .ga r) (ts := gaCalls d r ext)
      (calls_ga he) (ga_ok hl hs hi') (by omega)
    rw [hat] at hA
    exact ⟨b, hb, hlen, _, hdec, hA⟩
  | info pin => exact message_ok (cap := cap) rfl (info_ok d pin) (by omega)
  | retries n =>
    have := hl.err
    clear hs hw
    cases n with
    | none =>
      exact message_ok (cap := cap) (ts := retriesCalls d none) rfl (QN.map (PN.pair (pn_key 3 (by decide))
        ((pn_int (v := d.err) (by omega) (by omega)).weaken (Nat.zero_le _) (intSize_le _))) (by decide)) (by omega)
    | some n =>
      have := n.toNat_lt
      exact message_ok (cap := cap) (ts := retriesCalls d (some n)) rfl (QN.map (PN.pair (pn_key 3 (by decide))
        (pn_num (n := n.toNat) (by omega))) (by decide)) (by omega)
  | keyAgreement pub => exact message_ok (cap := cap) rfl (key_ok hs) (by omega)
  | token enc =>
    exact message_ok (cap := cap) rfl (QN.map (PN.pair (pn_key 2 (by decide)) (pn_bytes hs (by decide))) (by decide)) (by simp; omega)
  | credsMeta n left =>
    obtain ⟨h1, h2, h3⟩ := hs
    exact message_ok (cap := cap) rfl (QN.map ((PN.pair (pn_key 1 (by decide)) (pn_num (n := n) (by omega))).append
      (PN.pair (pn_key 2 (by decide)) ((pn_int (v := left) (by omega) (by omega)).weaken (Nat.zero_le _) (intSize_le _)))) (by decide)) (by omega)
  | rp id hash total => exact message_ok (cap := cap) rfl (rp_ok hs) (by omega)
  | cred c => exact message_ok (cap := cap) rfl (cred_ok hl hs hw) (by omega)
  | config b =>
    exact message_ok (cap := cap) rfl (QN.map (PN.pair (pn_key 1 (by decide)) (pn_raw hs (by decide))) (by decide)) (by omega)

theorem put_room {w w' : W} {b : Bytes} (h : w.put b = .ok w') (c : Nat) (hc : w.cap ≤ c) :
    w'.cap = w.cap ∧ w'.out.length ≤ w.cap ∧ W.put { w with cap := c } b = .ok { w' with cap := c } := by
  unfold W.put at h ⊢
  split at h
  · next hl =>
    cases h
    refine ⟨rfl, by simpa using hl, ?_⟩
    rw [if_pos (show w.out.length + b.length ≤ c by omega)]
  · cases h

theorem raw_room {w w' : W} {b : Bytes} (h : w.raw b = .ok w') (c : Nat) (hc : w.cap ≤ c) :
    w'.cap = w.cap ∧ w'.out.length ≤ w.cap ∧ W.raw { w with cap := c } b = .ok { w' with cap := c } := by
  unfold W.raw at h ⊢
  split at h
  · next hl =>
    cases h
    refine ⟨rfl, by simpa using hl, ?_⟩
    rw [if_pos (show w.out.length + b.length ≤ c by omega)]
  · cases h

/-- What can be written into a buffer can be written, with the same result, into a larger one. -/
theorem step_room {w w' : W} {t : Tok} (h : w.step t = .ok w') (c : Nat) (hc : w.cap ≤ c) (hl : w.out.length ≤ w.cap) :
    w'.cap = w.cap ∧ w'.out.length ≤ w.cap ∧ W.step { w with cap := c } t = .ok { w' with cap := c } := by
  cases t with
  | int v => exact put_room h c hc
  | bool b => exact put_room h c hc
  | close =>
    simp only [W.step] at h ⊢
    split at h
    · cases h
      exact ⟨rfl, hl, rfl⟩
    · cases h
  | bytes b =>
    simp only [W.step] at h ⊢
    cases h1 : w.count.put (head 2 b.length) with
    | error e => rw [h1] at h; cases h
    | ok w1 =>
      rw [h1] at h
      obtain ⟨a1, a2, a3⟩ := put_room h1 c hc
      obtain ⟨b1, b2, b3⟩ := put_room (show w1.put b = .ok w' from h) c (by rw [a1]; exact hc)
      have a1 : w1.cap = w.cap := a1
      refine ⟨b1.trans a1, by omega, ?_⟩
      rw [show W.count { w with cap := c } = { w.count with cap := c } from rfl, a3]
      exact b3
  | text b =>
    simp only [W.step] at h ⊢
    cases h1 : w.count.put (head 3 b.length) with
    | error e => rw [h1] at h; cases h
    | ok w1 =>
      rw [h1] at h
      obtain ⟨a1, a2, a3⟩ := put_room h1 c hc
      obtain ⟨b1, b2, b3⟩ := put_room (show w1.put b = .ok w' from h) c (by rw [a1]; exact hc)
      have a1 : w1.cap = w.cap := a1
      refine ⟨b1.trans a1, by omega, ?_⟩
      rw [show W.count { w with cap := c } = { w.count with cap := c } from rfl, a3]
      exact b3
  | rawBytes b =>
    simp only [W.step] at h ⊢
    cases h1 : w.count.put (head 2 b.length) with
    | error e => rw [h1] at h; cases h
    | ok w1 =>
      rw [h1] at h
      obtain ⟨a1, a2, a3⟩ := put_room h1 c hc
      obtain ⟨b1, b2, b3⟩ := raw_room (show w1.raw b = .ok w' from h) c (by rw [a1]; exact hc)
      have a1 : w1.cap = w.cap := a1
      refine ⟨b1.trans a1, by omega, ?_⟩
      rw [show W.count { w with cap := c } = { w.count with cap := c } from rfl, a3]
      exact b3
  | arr n =>
    simp only [W.step] at h ⊢
    cases h1 : w.count.put (head 4 n) with
    | error e => rw [h1] at h; cases h
    | ok w1 =>
      rw [h1] at h
      obtain ⟨a1, a2, a3⟩ := put_room h1 c hc
      cases h
      refine ⟨a1, a2, ?_⟩
      rw [show W.count { w with cap := c } = { w.count with cap := c } from rfl, a3]
      rfl
  | map n =>
    simp only [W.step] at h ⊢
    cases h1 : w.count.put (head 5 n) with
    | error e => rw [h1] at h; cases h
    | ok w1 =>
      rw [h1] at h
      obtain ⟨a1, a2, a3⟩ := put_room h1 c hc
      cases h
      refine ⟨a1, a2, ?_⟩
      rw [show W.count { w with cap := c } = { w.count with cap := c } from rfl, a3]
      rfl
  | fill b len =>
    simp only [W.step] at h ⊢
    cases h1 : W.raw { w with out := w.out.dropLast } b with
    | error e => rw [h1] at h; cases h
    | ok w1 =>
      rw [h1] at h
      obtain ⟨a1, a2, a3⟩ := raw_room h1 c hc
      cases h
      refine ⟨a1, Nat.le_trans (by simp only [List.length_take]; omega) a2, ?_⟩
      rw [a3]
      rfl
  | cert b =>
    simp only [W.step] at h ⊢
    cases h1 : W.raw { w with out := w.out.dropLast } (0x59 :: UInt8.ofNat (b.length / 256) :: UInt8.ofNat b.length :: b) with
    | error e => rw [h1] at h; cases h
    | ok w1 =>
      rw [h1] at h
      obtain ⟨a1, a2, a3⟩ := raw_room h1 c hc
      cases h
      refine ⟨a1, a2, ?_⟩
      rw [a3]

theorem run_room (ts : List Tok) : ∀ {w w' : W}, w.run ts = .ok w' → ∀ (c : Nat), w.cap ≤ c → w.out.length ≤ w.cap →
    w'.out.length ≤ w.cap ∧ W.run { w with cap := c } ts = .ok { w' with cap := c } := by
  induction ts with
  | nil =>
    intro w w' h c _ hl
    cases h
    exact ⟨hl, rfl⟩
  | cons t ts ih =>
    intro w w' h c hc hl
    unfold W.run at h ⊢
    cases h1 : w.step t with
    | error e => rw [h1] at h; cases h
    | ok w1 =>
      rw [h1] at h
      obtain ⟨a1, a2, a3⟩ := step_room h1 c hc hl
      obtain ⟨b1, b2⟩ := ih (show w1.run ts = .ok w' from h) c (by omega) (by omega)
      refine ⟨by omega, ?_⟩
      rw [a3]
      exact b2

/-- A message that does not fit is never reported as written. -/
theorem piece_room {ts b v} (h : Piece ts b v) {cap : Nat} {o : Bytes} (hw : write cap ts = .ok o) : o = b ∧ b.length ≤ cap := by
  unfold write at hw
  cases hr : W.run ⟨cap, [], []⟩ ts with
  | error e => rw [hr] at hw; cases hw
  | ok w' =>
    rw [hr] at hw
    cases hw
    obtain ⟨a1, a2⟩ := run_room ts hr (cap + b.length) (Nat.le_add_right _ _) (Nat.zero_le _)
    have := h.write (cap := cap + b.length) (by omega)
    unfold write at this
    rw [a2] at this
    have e : w'.out = b := by
      have := congrArg (fun e : Except Bad Bytes => match e with | .ok o => o | .error _ => []) this
      exact this
    rw [← e]
    exact ⟨rfl, a1⟩

/-- **C90 (certificates of every size).** The response to a registration is right exactly if it fits: if what the host should get has
less bytes than the buffer, the host gets it, with the status 0; otherwise the buffer is overrun or an error is reported, and never is
a response with the status 0 sent. Every certificate that can be installed (up to 1152 bytes) is covered. -/
theorem C90_fits (d : Dev) (hl : Lib d) (pri : Bytes) (r : McResp) (hs : Sized (.mc r)) (hcert : d.cert.length ≤ 1152)
    (hw : ∀ cid, r.ad.att = some cid → Cid.alg cid = ES256 ∨ Cid.alg cid = EDDSA ∨ Short d) (cap : Nat) (hc : 0 < cap) :
    ∃ b, Says d pri (.mc r) b ∧ b.length ≤ 390 + d.cert.length ∧ (b.length < cap → message cap d pri (.mc r) = some (0 :: b)) ∧
      (cap ≤ b.length → message cap d pri (.mc r) = none ∨ message cap d pri (.mc r) = some [0x12]) := by
  obtain ⟨h32, ⟨cid, hat, hcid⟩, h6, h7, hlbk⟩ := hs
  obtain ⟨ext, he, hd, hx⟩ := mcOut_ok r
  obtain ⟨hA, lo, hi⟩ := auth_ok hl (a := r.ad) (pri := pri) (ext := ext) (e := mcOut r) h32
    (fun c e => ⟨by rw [hat] at e; cases e; exact hcid, hw c e⟩) (by rw [h6, hat]; rfl) h7 hd
  rw [hat] at lo hi
  have hi' : (authData d r.ad pri ext).length ≤ 247 := by
    simp only [Option.isSome_some, if_true] at hi
    split at hi <;> omega
  obtain ⟨b, p, _, h2⟩ := mc_ok hl ⟨lo, hi'⟩ (by decide) hcert hlbk
  have hm : message cap d pri (.mc r) = match write (cap - 1) (mcCalls d r pri ext) with
      | .ok b => some (0 :: b)
      | .error .refused => some [0x12]
      | .error .overrun => none := by
    unfold message
    rw [calls_mc he]
    rfl
  refine ⟨b, ⟨_, p.decodes, hA⟩, by omega, fun h => ?_, fun h => ?_⟩
  · rw [hm, p.write (by omega)]
  · rw [hm]
    cases hwr : write (cap - 1) (mcCalls d r pri ext) with
    | ok o => exact absurd (piece_room p hwr).2 (by omega)
    | error e =>
      cases e
      · exact .inr rfl
      · exact .inl rfl

/-- **C90, refuted for large certificates.** A certificate of 1152 bytes can be installed, and then every registration writes past the
end of the response buffer, over any transport. -/
theorem C90_refuted_cert (d : Dev) (hl : Lib d) (pri : Bytes) (r : McResp) (hs : Sized (.mc r))
    (hw : ∀ cid, r.ad.att = some cid → Cid.alg cid = ES256 ∨ Cid.alg cid = EDDSA ∨ Short d) (hc : d.cert.length = 1152) (cap : Nat)
    (hcap : cap = 1300 ∨ cap = 1340) : message cap d pri (.mc r) = none := by
  obtain ⟨h32, ⟨cid, hat, hcid⟩, h6, h7, hlbk⟩ := hs
  obtain ⟨ext, he, hd, hx⟩ := mcOut_ok r
  obtain ⟨hA, lo, hi⟩ := auth_ok hl (a := r.ad) (pri := pri) (ext := ext) (e := mcOut r) h32
    (fun c e => ⟨by rw [hat] at e; cases e; exact hcid, hw c e⟩) (by rw [h6, hat]; rfl) h7 hd
  rw [hat] at lo hi
  simp only [Option.isSome_some, if_true] at lo hi
  have hi' : (authData d r.ad pri ext).length ≤ 250 := by split at hi <;> omega
  have hc' : (d.cert.take 1152).length = 1152 := by simp; omega
  unfold message
  rw [calls_mc he]
  show (match write (cap - 1) (mcCalls d r pri ext) with
    | .ok b => some (0 :: b)
    | .error .refused => some [0x12]
    | .error .overrun => none) = _
  rw [mc_overrun hl ⟨by omega, hi'⟩ (by omega) (by omega)]

/-! ### SM2 -/

/-- A device for examples: its keys and signatures are zeros, but that keys of ECDSA and SM2 begin with 4. -/
def toyDev (cert : Bytes) (algo curve : UInt32) : Dev where
  pub := fun a _ => if a = EDDSA then List.replicate 32 0 else 4 :: List.replicate 63 0
  sign := fun _ _ _ => List.replicate 70 0
  attest := fun _ => List.replicate 71 0
  cert := cert
  sm2 := ⟨true, algo⟩
  curve := curve
  err := -2

theorem toyDev_lib (cert : Bytes) (algo curve : UInt32) : Lib (toyDev cert algo curve) where
  ed := fun k => rfl
  ec := fun a k h => by simp [toyDev, if_neg h]
  sig := fun a k m => by simp [toyDev]
  att := fun m => by simp [toyDev]
  err := by simp only [toyDev]; decide

/-- A credential identifier with an algorithm. -/
def toyCid (alg : UInt32) : Bytes := List.replicate 66 7 ++ le32 alg

/-- A registration without extensions. -/
def toyMc (alg : UInt32) : McResp where
  ad := ⟨List.replicate 32 5, 0x41, 3, some (toyCid alg)⟩
  cdh := List.replicate 32 1
  hmacSecret := false
  protect := none
  blobOk := none
  lbk := none

/-- The message of a registration with long identifiers. -/
def sm2Msg : Bytes := ((message 1300 (toyDev [1, 2, 3] 0x10000 0x100) [] (.mc (toyMc 0x10000))).getD []).drop 1

/-- A credential of SM2 in an enumeration. -/
def toyCred : CmCred := ⟨⟨[1], [2], [3]⟩, toyCid 0xFFFFFFD0, [], none, 1, none⟩

/-- Its message. -/
def listMsg : Bytes := ((message 1300 (toyDev [1, 2, 3] 0xFFFFFFD0 9) [] (.cred toyCred)).getD []).drop 1

/-- **C90, refuted for SM2 with long identifiers.** If the configured identifiers of the algorithm and of the curve need more than
five bytes, the key does not fit in its buffer of 80 bytes; the error code of the encoder is then used as the length of the key, and the
message that the host gets has no credential key. -/
theorem C90_refuted_sm2 : ∃ (d : Dev) (r : McResp) (b : Bytes), Lib d ∧ Sized (.mc r) ∧ d.cert.length ≤ 900 ∧
    (∀ cid, r.ad.att = some cid → algOk d.sm2 (Cid.alg cid) = true) ∧
    message 1300 d [] (.mc r) = some (0 :: b) ∧ ¬ Says d [] (.mc r) b := by
  refine ⟨toyDev [1, 2, 3] 0x10000 0x100, toyMc 0x10000, sm2Msg,
    toyDev_lib _ _ _, ?_, by decide, ?_, by decide +kernel, ?_⟩
  · exact ⟨rfl, ⟨_, rfl, rfl⟩, by decide, by decide, fun _ h => nomatch h⟩
  · intro cid h
    cases h
    decide
  · rintro ⟨ad, hd, c4, A, E, e, h32, h4, _, _, _, hA, hE⟩
    obtain ⟨l, K, eA, hl, _, hK⟩ := hA
    have hE : E = [] := hE
    have had : ad = authData (toyDev [1, 2, 3] 0x10000 0x100) (toyMc 0x10000).ad [] [] := by
      have h2 := hd
      unfold Decodes at h2
      generalize hg : Spec.Cbor.item (2 * sm2Msg.length) sm2Msg = o at h2
      have hx : o.map (fun p => match p.1 with
          | .map [_, (_, .bytes x), _] => x
          | _ => []) = some (authData (toyDev [1, 2, 3] 0x10000 0x100) (toyMc 0x10000).ad [] []) := by
        rw [← hg]; decide +kernel
      rw [h2] at hx
      exact Option.some.inj hx
    have hk : K = (4 :: List.replicate 17 0 : Bytes) := by
      have : K = ad.drop 125 := by
        rw [e, eA, hE]
        have h1 : modelId.length = 16 := rfl
        have h2 : (toyCid 0x10000).length = 70 := rfl
        simp only [List.append_nil, ← List.append_assoc]
        rw [List.drop_append_of_le_length (by simp; omega), List.drop_eq_nil_of_le (by simp; omega), List.nil_append]
      rw [this, had]
      decide +kernel
    rw [hk] at hK
    have : Spec.Cbor.item (2 * (4 :: List.replicate 17 0 : Bytes).length) (4 :: List.replicate 17 0) = some (Val.int 4, List.replicate 17 0) := by
      rfl
    unfold Decodes at hK
    rw [this] at hK
    cases hK

/-- **C90, refuted for SM2 in enumerations.** An enumerated SM2 credential has no key: where the key should be, the message has its
first byte. -/
theorem C90_refuted_listing : ∃ (d : Dev) (c : CmCred) (b : Bytes), Lib d ∧ Sized (.cred c) ∧ Short d ∧ algOk d.sm2 (Cid.alg c.cid) = true ∧
    message 1300 d [] (.cred c) = some (0 :: b) ∧ ¬ Says d [] (.cred c) b := by
  refine ⟨toyDev [1, 2, 3] 0xFFFFFFD0 9, toyCred, listMsg, toyDev_lib _ _ _, ?_, ?_, by decide, by decide +kernel, ?_⟩
  · exact ⟨rfl, by decide, by decide, by decide, by decide, by decide, (fun _ h => nomatch h), (fun _ h => nomatch h)⟩
  · unfold Short; decide
  · intro h
    have h2 : Decodes listMsg _ := h
    unfold Decodes at h2
    generalize hg : Spec.Cbor.item (2 * listMsg.length) listMsg = o at h2
    have hx : o.map (fun p => match p.1 with
        | .map [_, _, (_, .int 4), _] => true
        | _ => false) = some true := by
      rw [← hg]; decide +kernel
    rw [h2] at hx
    exact absurd hx (by decide +kernel)

/-- The hypotheses of C90 are met, by ES256, EdDSA and SM2 as it is configured by default. -/
example : ∀ alg ∈ [ES256, EDDSA, 0xFFFFFFD0], ∃ b, message 1300 (toyDev (List.replicate 900 9) 0xFFFFFFD0 9) [] (.mc (toyMc alg)) = some (0 :: b) ∧
    b.length < 1300 ∧ Says (toyDev (List.replicate 900 9) 0xFFFFFFD0 9) [] (.mc (toyMc alg)) b := by
  intro alg _
  exact C90_messages_partial _ (toyDev_lib _ _ _) [] (.mc (toyMc alg)) ⟨by simp [toyMc], ⟨_, rfl, by simp [toyCid, le32]⟩, (by show Nat.testBit 0x41 6 = true; decide), (by show Nat.testBit 0x41 7 = false; decide), fun _ h => nomatch h⟩
    ⟨Nat.le_of_eq List.length_replicate, fun _ _ => .inr (.inr (by unfold Short; decide))⟩ 1300 (by decide)

/-- Certificates of `n` bytes. -/
example (n : Nat) (hn : n ≤ 1152) := C90_fits (toyDev (List.replicate n 9) 0xFFFFFFD0 9) (toyDev_lib _ _ _) [] (toyMc ES256)
  ⟨by simp [toyMc], ⟨_, rfl, by simp [toyCid, le32]⟩, (by show Nat.testBit 0x41 6 = true; decide), (by show Nat.testBit 0x41 7 = false; decide), fun _ h => nomatch h⟩
  (by show (List.replicate n (9 : Byte)).length ≤ 1152; rw [List.length_replicate]; exact hn)
  (fun _ _ => .inr (.inr (show intSize (signed 0xFFFFFFD0) + intSize (signed 9) ≤ 5 by decide))) 1300 (by decide)

/-- 950 bytes fit, 1150 do not. -/
example : (message 1300 (toyDev (List.replicate 950 9) 0xFFFFFFD0 9) [] (.mc (toyMc ES256))).isSome = true ∧
    message 1300 (toyDev (List.replicate 1150 9) 0xFFFFFFD0 9) [] (.mc (toyMc ES256)) = none := by decide +kernel

end Verif.Ctap.Enc
