import Verif.Lemmas.CtapCtr
/-
Large blobs: which operations touch the array, the array being received and the state of its reception.
-/
namespace Verif.Ctap
open Cmd

/-- The large-blob array, the array being received and the state of its reception are the same. -/
structure Blob (f : Flash) (r : Ram) (f' : Flash) (r' : Ram) : Prop where
  lb : f'.lb = f.lb
  lbt : f'.lbt = f.lbt
  ram : r'.lb = r.lb
instance : Pre Blob where
  refl _ _ := ⟨rfl, rfl, rfl⟩
  trans _ _ _ _ _ _ a b := ⟨b.lb.trans a.lb, b.lbt.trans a.lbt, b.ram.trans a.ram⟩

theorem Stored.blob {f f' : Flash} {r r' : Ram} (h : Stored f r f' r') : Blob f r f' r' :=
  ⟨h.lb, h.lbt, by rw [h.ram]⟩
theorem Same.blob {f f' : Flash} {r r' : Ram} (h : Same f r f' r') : Blob f r f' r' := by
  obtain ⟨rfl, rfl⟩ := h
  exact ⟨rfl, rfl, rfl⟩
theorem Blob.upd {g : Cert → Cert} {f f' : Flash} {r : Ram} (h : updCert g f = some f') : Blob f r f' r := by
  unfold updCert at h
  cases hd : f.cert with
  | none => rw [hd] at h; cases h
  | some _ => rw [hd] at h; cases h; exact ⟨rfl, rfl, rfl⟩
theorem bl_same {α : Type} {m : M α} (h : Rel Same m) : Rel Blob m := h.mono fun _ _ _ _ h => h.blob
theorem bl_stored {α : Type} {m : M α} (h : Rel Stored m) : Rel Blob m := h.mono fun _ _ _ _ h => h.blob

macro "blobs" : tactic => `(tactic| first
  | (intro _ _ _ h; exact (Stored.updRec' h).blob)
  | (intro _ _ _ h; exact (Stored.updMeta' h).blob)
  | (intro _ _ _ h; exact (Stored.updAttr' h).blob)
  | (intro _ _ _ h; exact Blob.upd h)
  | (intro _ _ _ h; cases h; exact ⟨rfl, rfl, rfl⟩)
  | (intro _ _; exact ⟨rfl, rfl, rfl⟩))

section
variable (x : Ext) (i : In)

theorem bl_verifyToken (msg sig : Bytes) (proto : Nat) : Rel Blob (verifyToken x i msg sig proto) := by
  unfold verifyToken
  rels (blobs)
theorem bl_mcAuth (q : McReq) : Rel Blob (mcAuth x i q) := by
  unfold mcAuth
  rels (first | exact bl_same same_hasPin | exact bl_verifyToken x i _ _ _ | blobs)
theorem bl_gaCheck (q : GaReq) : Rel Blob (gaCheck x i q) := by
  unfold gaCheck
  rels (first | exact bl_same same_hasPin | exact bl_same (same_emptyAuth _ _) | exact bl_verifyToken x i _ _ _ | blobs)
theorem bl_takePresence (a : Option Bytes) : Rel Blob (takePresence i a) := by
  unfold takePresence
  rels (first | exact bl_same (same_wait _ _) | blobs)
theorem bl_gaAllow (q : GaReq) (uv : Bool) (l : List Bytes) (dc : Dc) : Rel Blob (gaAllow x q uv l dc) := by
  induction l generalizing dc with
  | nil => exact Rel.fail _
  | cons c l ih =>
    unfold gaAllow
    rels (first | exact ih _ | exact bl_same (same_verifyKh x _))
theorem bl_gaSelect : Rel Blob (gaSelect x) := by
  unfold gaSelect
  rels (first | exact bl_gaAllow x _ _ _ _ | exact bl_same (same_verifyKh x _) | blobs)
theorem bl_gaHmac (cid : Bytes) (h : HmacSecret) : Rel Blob (gaHmac x i cid h) := by
  unfold gaHmac
  rels (blobs)
theorem bl_makeAuthData (rp : Bytes) (fl : Byte) (alg : UInt32) (dc cp : Byte) : Rel Blob (makeAuthData x i rp fl alg dc cp) := by
  unfold makeAuthData increaseCounter
  rels (blobs)
theorem bl_mcFinish (q : McReq) (uv : Bool) : Rel Blob (mcFinish x i q uv) := by
  unfold mcFinish
  rels (first | exact bl_makeAuthData x i _ _ _ _ _ | exact bl_stored (st_mcStore _ _) | exact bl_same (same_largeBlobKey x _) | blobs)
theorem bl_makeCredential (q : Except Byte McReq) : Rel Blob (makeCredential x i q) := by
  unfold makeCredential
  rels (first | exact bl_stored st_consistency | exact bl_same (same_emptyAuth _ _) | exact bl_same same_hasPin | exact bl_mcAuth x i _ | exact bl_same (same_mcExclude x i _ _ _ _) | exact bl_takePresence i _ | exact bl_mcFinish x i _ _ | blobs)
theorem bl_gaFinish : Rel Blob (gaFinish x i) := by
  unfold gaFinish
  rels (first | exact bl_gaSelect x | exact bl_takePresence i _ | exact bl_gaHmac x i _ _ | exact bl_makeAuthData x i _ _ _ _ _ | exact bl_same (same_largeBlobKey x _) | blobs)
theorem bl_getAssertion (q : Except Byte GaReq) : Rel Blob (getAssertion x i q) := by
  unfold getAssertion
  rels (first | exact bl_stored st_consistency | exact bl_gaCheck x i _ | exact bl_gaFinish x i | blobs)
theorem bl_getNext : Rel Blob (getNextAssertion x i) := by
  unfold getNextAssertion
  rels (first | exact bl_gaFinish x i | blobs)
theorem bl_u2f (q : UReq) : Rel Blob (u2f x i q) := by
  unfold u2f uTouch
  rels (first | exact bl_makeAuthData x i _ _ _ _ _ | blobs)
theorem bl_clientPin (q : Except Byte CpReq) : Rel Blob (clientPin x i q) := by
  unfold clientPin cpSetPin cpChangePin cpGetToken pinGate pinCompare storeNewPin setPin setPinRetries pinRetries
    verifyPinHash shared decryptOr
  rels (first | exact bl_same same_hasPin | blobs)
theorem bl_credMgmt (q : Except Byte CmReq) : Rel Blob (credMgmt x i q) := by
  unfold credMgmt cmAuth cmRpsBegin cmNextRp cmCredsBegin cmNextCred cmDelete cmUpdate cmFind cmCred metaCount rdAt
  rels (first | exact bl_stored st_consistency | exact bl_verifyToken x i _ _ _ | exact bl_same (same_verifyKh x _) | exact bl_same (same_largeBlobKey x _) | blobs)
theorem bl_lbAuth (q : LbReq) : Rel Blob (lbAuth x i q) := by
  unfold lbAuth
  rels (first | exact bl_same same_hasPin | exact bl_verifyToken x i _ _ _ | blobs)

/-- The last 16 bytes are the hash of the others. -/
def Sealed (b : Bytes) : Prop := b.drop (b.length - 16) = (x.sha (b.take (b.length - 16))).take 16

/-- No array is being received. -/
def LbIdle (r : Ram) : Prop := r.lb.off = 0 ∨ r.lb.len < r.lb.off

/-- The array becomes `b`, completely received and sealed. -/
structure Commit (f' : Flash) (n : Nat) (b : Bytes) : Prop where
  lb : f'.lb = some b
  len : b.length = n
  hash : Sealed x b

/-- A fragment is written after `b0` of an array of `n` bytes. -/
def Follows (f : Flash) (r : Ram) (q : LbReq) (n : Nat) (b0 : Bytes) : Prop :=
  (b0 ++ q.set).length ≤ n ∧ ((q.offset = 0 ∧ b0 = [] ∧ n = q.length) ∨
  (q.offset ≠ 0 ∧ q.offset = b0.length ∧ r.lb = ⟨b0.length, n⟩ ∧ f.lbt = some b0))

theorem writeAt_end (b c : Bytes) : writeAt b b.length c = b ++ c := by
  unfold writeAt
  simp

/-- Writing a fragment. -/
theorem wp_lbWrite {A : Fault → Prop} {f : Flash} {r : Ram} (q : LbReq)
    (hi : q.offset ≠ 0 → LbIdle r ∨ ∃ n b, r.lb = ⟨b.length, n⟩ ∧ f.lbt = some b) :
    wp A (lbSet x i q)
      (fun a f' r' => ∃ n b0, Follows f r q n b0 ∧ a = .empty ∧
        ((f'.lb = f.lb ∧ f'.lbt = some (b0 ++ q.set) ∧ r'.lb = ⟨(b0 ++ q.set).length, n⟩ ∧ (b0 ++ q.set).length ≠ n) ∨
          (Commit x f' n (b0 ++ q.set) ∧ LbIdle r')))
      (fun _ f' r' => f'.lb = f.lb ∧ (LbIdle r' ∨ (q.offset ≠ 0 ∧ r'.lb = r.lb ∧ f'.lbt = f.lbt)))
      (fun f' _ => f'.lb = f.lb) f r := by
  unfold lbSet
  have key : ∀ f1 r1 n b0, f1 = f → r1.lb.len = n → r1.lb.off = b0.length → q.offset = b0.length →
      ((b0 ++ q.set).length ≤ n → Follows f r q n b0) → (q.offset = 0 ∨ f.lbt = some b0) → (q.offset ≠ 0 → r1.lb = r.lb) →
      wp A (do
        let r ← Cmd.get
        failIf (q.offset != r.lb.off) Code.invalidSeq
        lbAuth x i q
        failIf (q.offset + q.set.length > r.lb.len) Code.invalidParameter
        Cmd.wrOr (fun f => some { f with
            lbt := some (if q.offset == 0 then q.set else writeAt (f.lbt.getD []) q.offset q.set) })
          (.code Code.unhandled)
        Cmd.mod fun r => { r with lb := { r.lb with off := r.lb.off + q.set.length } }
        if q.offset + q.set.length == r.lb.len then do
          Cmd.mod fun r => { r with lb := { r.lb with len := r.lb.len - 16 } }
          let n := r.lb.len - 16
          let b ← Cmd.rdOr (fun f => f.lbt) (.code Code.unhandled)
          failIf ((x.sha (b.take n)).take 16 != (b.drop n).take 16) Code.integrity
          Cmd.wrOr (fun f => f.lbt.map fun b => { f with lb := some b, lbt := none }) (.code Code.unhandled)
          return .empty
        else return .empty : M Resp)
        (fun a f' r' => ∃ n b0, Follows f r q n b0 ∧ a = .empty ∧
          ((f'.lb = f.lb ∧ f'.lbt = some (b0 ++ q.set) ∧ r'.lb = ⟨(b0 ++ q.set).length, n⟩ ∧ (b0 ++ q.set).length ≠ n) ∨
            (Commit x f' n (b0 ++ q.set) ∧ LbIdle r')))
        (fun _ f' r' => f'.lb = f.lb ∧ (LbIdle r' ∨ (q.offset ≠ 0 ∧ r'.lb = r.lb ∧ f'.lbt = f.lbt)))
        (fun f' _ => f'.lb = f.lb) f1 r1 := by
    rintro f r1 n b0 rfl hn ho hq hfo hb0 hrr
    have herr : ∀ r' : Ram, r'.lb = r1.lb → LbIdle r' ∨ (q.offset ≠ 0 ∧ r'.lb = r.lb ∧ f.lbt = f.lbt) := by
      intro r' hr'
      by_cases h0 : q.offset = 0
      · left; left; rw [hr', ho, ← hq, h0]
      · right; exact ⟨h0, hr'.trans (hrr h0), rfl⟩
    apply wp_bind
    apply wp_get
    apply wp_bind
    apply wp_failIf
    · intro _; exact ⟨rfl, herr _ rfl⟩
    intro _
    apply wp_bind
    refine wp_mono (bl_lbAuth x i q A f r1) ?_ ?_ ?_
    · intro _ f2 r2 h2
      apply wp_bind
      apply wp_failIf
      · intro _
        refine ⟨h2.lb, ?_⟩
        rw [h2.lbt]
        exact herr _ h2.ram
      intro hlen
      replace hfo := hfo (by
        have hlen : ¬ (q.offset + q.set.length > r1.lb.len) := by simpa using hlen
        rw [List.length_append, ← hq, ← hn]
        omega)
      apply wp_bind
      have hw : (if q.offset == 0 then q.set else writeAt (f2.lbt.getD []) q.offset q.set) = b0 ++ q.set := by
        by_cases h0 : q.offset = 0
        · have : b0 = [] := List.eq_nil_of_length_eq_zero (by omega)
          simp [h0, this]
        · have : f.lbt = some b0 := by
            rcases hb0 with h | h
            · exact absurd h h0
            · exact h
          have hne : (q.offset == 0) = false := by simp [h0]
          rw [hne, h2.lbt, this]
          show writeAt b0 q.offset q.set = _
          rw [hq]
          exact writeAt_end _ _
      apply wp_wrOr
      · intro f3 hf3
        cases hf3
        rw [hw]
        apply wp_bind
        apply wp_mod
        have hoff : r2.lb.off + q.set.length = (b0 ++ q.set).length := by
          rw [h2.ram, ho, List.length_append]
        apply wp_ite <;> intro hfin
        · have hfin : q.offset + q.set.length = n := by
            have := eq_of_beq hfin
            rw [this]; exact hn
          have hlen' : (b0 ++ q.set).length = n := by rw [List.length_append, ← hq]; exact hfin
          have hid : ∀ r' : Ram, r'.lb = ⟨r2.lb.off + q.set.length, r2.lb.len - 16⟩ → LbIdle r' := by
            intro r' hr'
            unfold LbIdle
            rw [hr']
            show r2.lb.off + q.set.length = 0 ∨ r2.lb.len - 16 < r2.lb.off + q.set.length
            rw [hoff, hlen', h2.ram, hn]
            omega
          apply wp_bind
          apply wp_mod
          wzeta
          apply wp_bind
          apply wp_rdOr
          · intro b hb
            cases hb
            apply wp_bind
            apply wp_failIf
            · intro _
              exact ⟨h2.lb, Or.inl (hid _ rfl)⟩
            intro hs
            have hs' : (x.sha ((b0 ++ q.set).take (n - 16))).take 16 = ((b0 ++ q.set).drop (n - 16)).take 16 := by
              rw [hn] at hs
              simpa using hs
            have hseal : Sealed x (b0 ++ q.set) := by
              unfold Sealed
              rw [hlen', hs']
              rw [List.take_of_length_le]
              rw [List.length_drop, hlen']
              omega
            apply wp_bind
            apply wp_wrOr
            · intro f4 hf4
              cases hf4
              exact wp_pure ⟨n, b0, hfo, rfl, Or.inr ⟨⟨rfl, hlen', hseal⟩, hid _ rfl⟩⟩
            · intro _; exact ⟨h2.lb, Or.inl (hid _ rfl)⟩
            · intro _; exact ⟨h2.lb, Or.inl (hid _ rfl)⟩
            · intro _; exact h2.lb
          · intro _; exact ⟨h2.lb, Or.inl (hid _ rfl)⟩
          · intro _; exact ⟨h2.lb, Or.inl (hid _ rfl)⟩
          · intro _; exact h2.lb
        · refine wp_pure ⟨n, b0, hfo, rfl, Or.inl ⟨h2.lb, rfl, ?_, ?_⟩⟩
          · show (⟨r2.lb.off + q.set.length, r2.lb.len⟩ : LbS) = _
            rw [hoff, h2.ram, hn]
          · rw [List.length_append, ← hq]
            intro h
            apply hfin
            rw [hn]
            exact beq_iff_eq.mpr h
      · intro _
        refine ⟨h2.lb, ?_⟩
        rw [h2.lbt]
        exact herr _ h2.ram
      · intro _
        refine ⟨h2.lb, ?_⟩
        rw [h2.lbt]
        exact herr _ h2.ram
      · intro _; exact h2.lb
    · intro _ f2 r2 h2
      refine ⟨h2.lb, ?_⟩
      rw [h2.lbt]
      exact herr _ h2.ram
    · intro f2 r2 h2
      exact h2.lb
  by_cases h0 : q.offset = 0
  · have : (q.offset == 0) = true := by simp [h0]
    show wp A _ _ _ _ f r
    wzeta
    rw [if_pos this]
    apply wp_bind
    apply wp_mod
    exact key f _ q.length [] rfl rfl rfl h0 (fun h => ⟨h, Or.inl ⟨h0, rfl, rfl⟩⟩) (Or.inl h0) (fun h => absurd h0 h)
  · have : (q.offset == 0) = false := by simp [h0]
    show wp A _ _ _ _ f r
    wzeta
    rw [if_neg (by rw [this]; exact Bool.false_ne_true)]
    by_cases hof : q.offset = r.lb.off
    · rcases hi h0 with hid | ⟨n, b, h1, h2⟩
      · apply wp_bind
        apply wp_get
        apply wp_bind
        apply wp_failIf
        · intro _; exact ⟨rfl, Or.inl hid⟩
        intro _
        apply wp_bind
        refine wp_mono (bl_lbAuth x i q A f r) ?_ ?_ ?_
        · intro _ f2 r2 h2
          apply wp_bind
          apply wp_failIf
          · intro _
            exact ⟨h2.lb, Or.inr ⟨h0, h2.ram, h2.lbt⟩⟩
          intro hlen
          exfalso
          have hlen : ¬ (q.offset + q.set.length > r.lb.len) := by simpa using hlen
          rcases hid with h | h
          · omega
          · omega
        · intro _ f2 r2 h2
          exact ⟨h2.lb, Or.inr ⟨h0, h2.ram, h2.lbt⟩⟩
        · intro f2 r2 h2
          exact h2.lb
      · refine key f r n b rfl (by rw [h1]) (by rw [h1]) (by rw [hof, h1]) (fun h => ⟨h, Or.inr ⟨h0, by rw [hof, h1], h1, h2⟩⟩) (Or.inr h2) (fun _ => rfl)
    · apply wp_bind
      apply wp_get
      apply wp_bind
      apply wp_failIf
      · intro _; exact ⟨rfl, Or.inr ⟨h0, rfl, rfl⟩⟩
      intro h
      simp [hof] at h
end
end Verif.Ctap
