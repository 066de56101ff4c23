import Verif.Lemmas.CtapWp
/-
What the commands other than clientPIN and reset leave alone.
-/
namespace Verif.Ctap
open Cmd

/-- How a token may change without a new PIN check: permissions shrink, flags fall, the relying party
can be bound once, and the timeout can be restarted. -/
structure TokLe (now : UInt32) (t t' : Tok) : Prop where
  token : t'.token = t.token
  inUse : t'.inUse = t.inUse
  perms : t'.perms &&& t.perms = t'.perms
  rp : ∀ h, t.rp = some h → t'.rp = some h
  uv : t'.uv = true → t.uv = true
  up : t'.up = true → t.up = true
  timeout : t'.timeout = t.timeout ∨ (t.inUse = true ∧ t'.timeout = now + 30000)

theorem TokLe.refl (now : UInt32) (t : Tok) : TokLe now t t :=
  ⟨rfl, rfl, UInt8.and_self, fun _ h => h, id, id, Or.inl rfl⟩

theorem TokLe.trans {now : UInt32} {t t' t'' : Tok} (a : TokLe now t t') (b : TokLe now t' t'') :
    TokLe now t t'' := by
  refine ⟨b.token.trans a.token, b.inUse.trans a.inUse, ?_, fun h hh => b.rp h (a.rp h hh),
    fun h => a.uv (b.uv h), fun h => a.up (b.up h), ?_⟩
  · rw [← b.perms, UInt8.and_assoc, a.perms]
  · cases b.timeout with
    | inl h =>
      cases a.timeout with
      | inl h' => exact Or.inl (h.trans h')
      | inr h' => exact Or.inr ⟨h'.1, h.trans h'.2⟩
    | inr h => exact Or.inr ⟨a.inUse ▸ h.1, h.2⟩

theorem TokLe.clearFlags (now : UInt32) (t : Tok) : TokLe now t t.clearFlags := by
  unfold Tok.clearFlags
  split
  · refine ⟨rfl, rfl, ?_, fun _ h => h, fun h => (nomatch h), fun h => (nomatch h), Or.inl rfl⟩
    show t.perms &&& ~~~permLbw &&& t.perms = t.perms &&& ~~~permLbw
    rw [UInt8.and_assoc, UInt8.and_comm (~~~permLbw), ← UInt8.and_assoc, UInt8.and_self]
  · exact TokLe.refl _ _

/-- PIN, device secrets and lockout state are untouched, the token only loses authority. -/
structure Quiet (now : UInt32) (f : Flash) (r : Ram) (f' : Flash) (r' : Ram) : Prop where
  pin : rdCert (·.pin) f' = rdCert (·.pin) f
  pinCtr : rdCert (·.pinCtr) f' = rdCert (·.pinCtr) f
  kh : rdCert (·.kh) f' = rdCert (·.kh) f
  he : rdCert (·.he) f' = rdCert (·.he) f
  consec : r'.consec = r.consec
  ka : r'.ka = r.ka
  sm2 : r'.sm2 = r.sm2
  lb : f.lb.isSome = true → f'.lb.isSome = true
  tok : TokLe now r.tok r'.tok

instance (now : UInt32) : Pre (Quiet now) where
  refl _ _ := ⟨rfl, rfl, rfl, rfl, rfl, rfl, rfl, id, TokLe.refl _ _⟩
  trans _ _ _ _ _ _ a b := ⟨b.pin.trans a.pin, b.pinCtr.trans a.pinCtr, b.kh.trans a.kh, b.he.trans a.he,
    b.consec.trans a.consec, b.ka.trans a.ka, b.sm2.trans a.sm2, fun h => b.lb (a.lb h), a.tok.trans b.tok⟩

namespace Quiet
variable {now : UInt32}

/-- Changes of RAM outside the token. -/
theorem ram {f : Flash} {r r' : Ram} (h : r'.consec = r.consec := by rfl) (h2 : r'.ka = r.ka := by rfl)
    (h3 : r'.sm2 = r.sm2 := by rfl) (h5 : r'.tok = r.tok := by rfl) :
    Quiet now f r f r' := ⟨rfl, rfl, rfl, rfl, h, h2, h3, id, h5 ▸ TokLe.refl _ _⟩

/-- Changes of the token. -/
theorem ofTok {f : Flash} {r : Ram} {t : Tok} (h : TokLe now r.tok t) : Quiet now f r f { r with tok := t } :=
  ⟨rfl, rfl, rfl, rfl, rfl, rfl, rfl, id, h⟩

theorem ofCert {f f' : Flash} {r : Ram} (h : f'.cert = f.cert) (hl : f.lb.isSome = true → f'.lb.isSome = true) :
    Quiet now f r f' r := by
  refine ⟨?_, ?_, ?_, ?_, rfl, rfl, rfl, hl, TokLe.refl _ _⟩ <;> (unfold rdCert; rw [h])

theorem updRec' {p : Nat} {d : Dc} {f f' : Flash} {r : Ram} (h : updRec p d f = some f') : Quiet now f r f' r := by
  unfold updRec at h
  split at h <;> (cases h; exact ofCert rfl id)
theorem updMeta' {p : Nat} {d : Meta} {f f' : Flash} {r : Ram} (h : updMeta p d f = some f') : Quiet now f r f' r := by
  unfold updMeta at h
  split at h <;> (cases h; exact ofCert rfl id)
theorem updAttr' {d : Attr} {f f' : Flash} {r : Ram} (h : updAttr d f = some f') : Quiet now f r f' r := by
  unfold updAttr at h
  cases hd : f.dc with
  | none => rw [hd] at h; cases h
  | some _ => rw [hd] at h; cases h; exact ofCert rfl id
theorem updCert' {g : Cert → Cert} {f f' : Flash} {r : Ram} (h : updCert g f = some f')
    (h1 : ∀ c, (g c).pin = c.pin := by intro _; rfl) (h2 : ∀ c, (g c).pinCtr = c.pinCtr := by intro _; rfl)
    (h3 : ∀ c, (g c).kh = c.kh := by intro _; rfl) (h4 : ∀ c, (g c).he = c.he := by intro _; rfl) :
    Quiet now f r f' r := by
  unfold updCert at h
  cases hd : f.cert with
  | none => rw [hd] at h; cases h
  | some c =>
    rw [hd] at h
    cases h
    refine ⟨?_, ?_, ?_, ?_, rfl, rfl, rfl, id, TokLe.refl _ _⟩ <;> (unfold rdCert; rw [hd])
    · exact h1 c
    · exact h2 c
    · exact h3 c
    · exact h4 c
theorem lbRename {f f' : Flash} {r : Ram}
    (h : (f.lbt.map fun b => { f with lb := some b, lbt := none }) = some f') : Quiet now f r f' r := by
  obtain ⟨_, _, rfl⟩ := Option.map_eq_some_iff.mp h
  exact Quiet.ofCert rfl (fun _ => rfl)
end Quiet

/-- Closes the side conditions of `Quiet`. -/
macro "quiet" : tactic => `(tactic| first
  | (intro _ _; exact Quiet.ram)
  | (intro _ _; exact Quiet.ofTok (TokLe.clearFlags _ _))
  | (intro _ _ _ h; exact Quiet.updRec' h)
  | (intro _ _ _ h; exact Quiet.updMeta' h)
  | (intro _ _ _ h; exact Quiet.updAttr' h)
  | (intro _ _ _ h; exact Quiet.updCert' h)
  | (intro _ _ _ h; cases h; exact Quiet.ofCert rfl id)
  | (intro _ _ _ h; exact Quiet.lbRename h))

section
variable (x : Ext) (i : In)

theorem q_consistency (now : UInt32) : Rel (Quiet now) consistency := by
  unfold consistency
  rels (quiet)

theorem q_wait (now : UInt32) (c : Byte) : Rel (Quiet now) (wait i c) := by
  unfold wait
  rels (quiet)

theorem q_hasPin (now : UInt32) : Rel (Quiet now) hasPin := by
  unfold hasPin
  rels (quiet)

theorem q_verifyKh (now : UInt32) (cid : Bytes) : Rel (Quiet now) (verifyKh x cid) := by
  unfold verifyKh
  rels (quiet)

theorem q_increase (now : UInt32) : Rel (Quiet now) increaseCounter := by
  unfold increaseCounter
  rels (quiet)

theorem q_verifyToken (msg sig : Bytes) (proto : Nat) : Rel (Quiet i.tick) (verifyToken x i msg sig proto) := by
  intro A f r
  unfold verifyToken
  apply wp_bind
  apply wp_get
  split
  · exact wp_pure (Pre.refl _ _)
  · apply wp_bind
    apply wp_mod
    apply wp_pure
    refine Quiet.ofTok ⟨rfl, rfl, UInt8.and_self, fun _ h => h, id, id, Or.inr ⟨?_, rfl⟩⟩
    simp_all

theorem q_makeAuthData (now : UInt32) (rp : Bytes) (fl : Byte) (alg : UInt32) (dc cp : Byte) :
    Rel (Quiet now) (makeAuthData x i rp fl alg dc cp) := by
  unfold makeAuthData
  rels (first | exact q_increase _ | quiet)

theorem q_largeBlobKey (now : UInt32) (cid : Bytes) : Rel (Quiet now) (largeBlobKey x cid) := by
  unfold largeBlobKey
  rels (quiet)

theorem q_emptyAuth (now : UInt32) (p : Option Bytes) : Rel (Quiet now) (emptyAuth i p) := by
  unfold emptyAuth
  rels (first | exact q_hasPin _ | exact q_wait _ _ _ | quiet)

/-- Binding a relying party that was checked. -/
theorem TokLe.associate {now : UInt32} {t t' : Tok} {h : Bytes} (a : TokLe now t t')
    (hok : t.rpOk h = true) : TokLe now t (t'.associate h) := by
  refine ⟨a.token, a.inUse, a.perms, ?_, a.uv, a.up, a.timeout⟩
  intro h' hh
  unfold Tok.rpOk at hok
  rw [hh] at hok
  show some h = some h'
  rw [eq_of_beq hok]

/-- What verifying a token does, and when it says yes. -/
theorem wp_verifyToken {A : Fault → Prop} {Q : Bool → Flash → Ram → Prop} {E : Err → Flash → Ram → Prop}
    {X : Flash → Ram → Prop} {f : Flash} {r : Ram} {msg sig : Bytes} {proto : Nat}
    (h0 : r.tok.inUse = false → Q false f r)
    (h1 : r.tok.inUse = true → Q (verifyMac x r.tok.token msg sig proto) f
      { r with tok := { r.tok with timeout := i.tick + 30000 } }) :
    wp A (verifyToken x i msg sig proto) Q E X f r := by
  unfold verifyToken
  apply wp_bind
  apply wp_get
  cases h : r.tok.inUse with
  | false => exact wp_pure (h0 h)
  | true =>
    apply wp_bind
    apply wp_mod
    exact wp_pure (h1 h)

/-- Checking a token and binding it to a relying party. -/
theorem q_authorize (r : Ram) (f : Flash) (A : Fault → Prop) (msg sig : Bytes) (proto : Nat)
    {α : Type} (m : Ram → Bool → M α)
    (hm : ∀ r' b, (r' = r ∨ (r.tok.inUse = true ∧ r' = { r with tok := { r.tok with timeout := i.tick + 30000 } })) →
      wp A (m r b) (fun _ f' r' => Quiet i.tick f r f' r') (fun _ f' r' => Quiet i.tick f r f' r')
        (fun f' r' => Quiet i.tick f r f' r') f r') :
    wp A (do let b ← verifyToken x i msg sig proto; m r b) (fun _ f' r' => Quiet i.tick f r f' r')
      (fun _ f' r' => Quiet i.tick f r f' r') (fun f' r' => Quiet i.tick f r f' r') f r := by
  apply wp_bind
  apply wp_verifyToken
  · intro _
    exact hm _ _ (Or.inl rfl)
  · intro h
    exact hm _ _ (Or.inr ⟨h, rfl⟩)

theorem quiet_ref {f : Flash} {r r' : Ram}
    (h : r' = r ∨ (r.tok.inUse = true ∧ r' = { r with tok := { r.tok with timeout := i.tick + 30000 } })) :
    Quiet i.tick f r f r' := by
  cases h with
  | inl h => subst h; exact Pre.refl _ _
  | inr h => rw [h.2]; exact Quiet.ofTok ⟨rfl, rfl, UInt8.and_self, fun _ h => h, id, id, Or.inr ⟨h.1, rfl⟩⟩

theorem q_mcAuth (q : McReq) : Rel (Quiet i.tick) (mcAuth x i q) := by
  intro A f r
  unfold mcAuth
  apply wp_bind
  apply wp_mono (q_hasPin i.tick A f r)
  · intro p f' r' h
    refine wp_mono (Q := fun _ f'' r'' => Quiet i.tick f' r' f'' r'') (E := fun _ f'' r'' => Quiet i.tick f' r' f'' r'')
      (X := fun f'' r'' => Quiet i.tick f' r' f'' r'') ?_ (fun _ _ _ h' => Pre.trans _ _ _ _ _ _ h h')
      (fun _ _ _ h' => Pre.trans _ _ _ _ _ _ h h') (fun _ _ h' => Pre.trans _ _ _ _ _ _ h h')
    split
    · exact wp_pure (Pre.refl _ _)
    · split
      · exact wp_pure (Pre.refl _ _)
      · apply wp_bind
        apply wp_get
        apply wp_bind
        apply wp_failIf
        · intro _
          exact Pre.refl _ _
        · intro _
          apply q_authorize x i r' f' A _ _ _ (m := fun r' b => (do
            failIf (!b) Code.pinAuthInvalid
            failIf (!r'.tok.has permMc) Code.pinAuthInvalid
            failIf (!r'.tok.rpOk q.rpHash) Code.pinAuthInvalid
            failIf (!r'.tok.verifiedFlag) Code.pinAuthInvalid
            Cmd.mod fun r => { r with tok := r.tok.associate q.rpHash }
            return true : M Bool))
          intro r2 b h2
          have hq := quiet_ref (f := f') i h2
          apply wp_bind; apply wp_failIf
          · intro _; exact hq
          intro _
          apply wp_bind; apply wp_failIf
          · intro _; exact hq
          intro _
          apply wp_bind; apply wp_failIf
          · intro _; exact hq
          intro hrp
          apply wp_bind; apply wp_failIf
          · intro _; exact hq
          intro _
          apply wp_bind
          apply wp_mod
          apply wp_pure
          exact ⟨hq.pin, hq.pinCtr, hq.kh, hq.he, hq.consec, hq.ka, hq.sm2, hq.lb,
            hq.tok.associate (by simpa using hrp)⟩
  · exact fun _ _ _ h => h
  · exact fun _ _ h => h

theorem q_mcExclude (now : UInt32) (q : McReq) (uv : Bool) (l : List Bytes) (buf : Bytes) :
    Rel (Quiet now) (mcExclude x i q uv l buf) := by
  induction l generalizing buf with
  | nil => exact Rel.pure _
  | cons d l ih =>
    unfold mcExclude
    rels (first | exact ih _ | exact q_verifyKh _ _ _ | exact q_wait _ _ _ | quiet)

theorem q_takePresence (now : UInt32) (p : Option Bytes) : Rel (Quiet now) (takePresence i p) := by
  unfold takePresence
  rels (first | exact q_wait _ _ _ | quiet)

theorem q_mcStore (now : UInt32) (q : McReq) (cid : Bytes) : Rel (Quiet now) (mcStore q cid) := by
  unfold mcStore
  rels (quiet)

theorem q_mcFinish (now : UInt32) (q : McReq) (uv : Bool) : Rel (Quiet now) (mcFinish x i q uv) := by
  unfold mcFinish
  rels (first | exact q_makeAuthData _ _ _ _ _ _ _ _ | exact q_mcStore _ _ _ | exact q_largeBlobKey _ _ _ | quiet)

theorem q_makeCredential (q : Except Byte McReq) : Rel (Quiet i.tick) (makeCredential x i q) := by
  unfold makeCredential
  rels (first | exact q_consistency _ | exact q_emptyAuth _ _ _ | exact q_hasPin _ | exact q_mcAuth _ _ _ | exact q_mcExclude _ _ _ _ _ _ _ | exact q_takePresence _ _ _ | exact q_mcFinish _ _ _ _ _ | quiet)

/-- The check of the token in getAssertion. -/
def gaAuth (q : GaReq) (p : Bool) : M Unit :=
  match q.pinAuth with
  | none => pure ()
  | some auth =>
    if !p then pure ()
    else do
      let r ← Cmd.get
      failIf (r.consec == 0) Code.pinAuthBlocked
      let ok ← verifyToken x i q.cdh auth (q.proto.getD 0)
      failIf (!ok) Code.pinAuthInvalid
      Cmd.mod fun r => { r with ga := { r.ga with uv := true } }
      failIf (!r.tok.verifiedFlag) Code.pinAuthInvalid
      failIf (!r.tok.has permGa) Code.pinAuthInvalid
      failIf (!r.tok.rpOk q.rpHash) Code.pinAuthInvalid
      Cmd.mod fun r => { r with tok := r.tok.associate q.rpHash }

theorem q_gaAuth (q : GaReq) (p : Bool) : Rel (Quiet i.tick) (gaAuth x i q p) := by
  intro A f r
  unfold gaAuth
  split
  · exact wp_pure (Pre.refl _ _)
  · split
    · exact wp_pure (Pre.refl _ _)
    · apply wp_bind
      apply wp_get
      apply wp_bind
      apply wp_failIf
      · intro _
        exact Pre.refl _ _
      · intro _
        apply q_authorize x i r f A _ _ _ (m := fun r' b => (do
          failIf (!b) Code.pinAuthInvalid
          Cmd.mod fun r => { r with ga := { r.ga with uv := true } }
          failIf (!r'.tok.verifiedFlag) Code.pinAuthInvalid
          failIf (!r'.tok.has permGa) Code.pinAuthInvalid
          failIf (!r'.tok.rpOk q.rpHash) Code.pinAuthInvalid
          Cmd.mod fun r => { r with tok := r.tok.associate q.rpHash } : M Unit))
        intro r2 b h2
        have hq := quiet_ref (f := f) i h2
        have hq' : Quiet i.tick f r f { r2 with ga := { r2.ga with uv := true } } :=
          Pre.trans _ _ _ _ _ _ hq Quiet.ram
        apply wp_bind; apply wp_failIf
        · intro _; exact hq
        intro _
        apply wp_bind; apply wp_mod
        apply wp_bind; apply wp_failIf
        · intro _; exact hq'
        intro _
        apply wp_bind; apply wp_failIf
        · intro _; exact hq'
        intro _
        apply wp_bind; apply wp_failIf
        · intro _; exact hq'
        intro hrp
        apply wp_mod
        exact ⟨hq.pin, hq.pinCtr, hq.kh, hq.he, hq.consec, hq.ka, hq.sm2, hq.lb,
          hq.tok.associate (by simpa using hrp)⟩

theorem q_gaCheck (q : GaReq) : Rel (Quiet i.tick) (gaCheck x i q) := by
  unfold gaCheck
  apply Rel.bind (q_emptyAuth _ _ _); intro _
  apply Rel.bind (Rel.failIf _ _); intro _
  apply Rel.bind (Rel.mod (R := Quiet i.tick) (fun _ _ => Quiet.ram)); intro _
  apply Rel.bind (Rel.failIf _ _); intro _
  apply Rel.bind (Rel.failIf _ _); intro _
  apply Rel.bind (q_hasPin _); intro p
  exact q_gaAuth x i q p

theorem q_gaAllow (now : UInt32) (q : GaReq) (uv : Bool) (l : List Bytes) (dc : Dc) :
    Rel (Quiet now) (gaAllow x q uv l dc) := by
  induction l generalizing dc with
  | nil => exact Rel.fail _
  | cons d l ih =>
    unfold gaAllow
    rels (first | exact ih _ | exact q_verifyKh _ _ _ | quiet)

theorem q_gaSelect (now : UInt32) : Rel (Quiet now) (gaSelect x) := by
  unfold gaSelect
  rels (first | exact q_gaAllow _ _ _ _ _ _ | exact q_verifyKh _ _ _ | quiet)

theorem q_gaHmac (now : UInt32) (cid : Bytes) (h : HmacSecret) : Rel (Quiet now) (gaHmac x i cid h) := by
  unfold gaHmac
  rels (quiet)

theorem q_gaFinish (now : UInt32) : Rel (Quiet now) (gaFinish x i) := by
  unfold gaFinish
  rels (first | exact q_gaSelect _ _ | exact q_takePresence _ _ _ | exact q_gaHmac _ _ _ _ _ | exact q_makeAuthData _ _ _ _ _ _ _ _ | exact q_largeBlobKey _ _ _ | quiet)

theorem q_getAssertion (q : Except Byte GaReq) : Rel (Quiet i.tick) (getAssertion x i q) := by
  unfold getAssertion
  rels (first | exact q_consistency _ | exact q_gaCheck _ _ _ | exact q_gaFinish _ _ _ | quiet)

theorem q_getNextAssertion (now : UInt32) : Rel (Quiet now) (getNextAssertion x i) := by
  unfold getNextAssertion
  rels (first | exact q_gaFinish _ _ _ | quiet)

theorem q_cmAuth (q : CmReq) : Rel (Quiet i.tick) (cmAuth x i q) := by
  unfold cmAuth
  rels (first | exact q_verifyToken _ _ _ _ _ | quiet)

theorem q_cmCred (now : UInt32) (b : Bool) : Rel (Quiet now) (cmCred x b) := by
  unfold cmCred
  rels (first | exact q_verifyKh _ _ _ | exact q_largeBlobKey _ _ _ | quiet)

theorem q_metaCount (now : UInt32) : Rel (Quiet now) metaCount := by
  unfold metaCount
  rels (quiet)

theorem q_cmFind (now : UInt32) (q : CmReq) (n : Byte) : Rel (Quiet now) (cmFind q n) := by
  unfold cmFind
  rels (quiet)

theorem q_credMgmt (q : Except Byte CmReq) : Rel (Quiet i.tick) (credMgmt x i q) := by
  unfold credMgmt cmRpsBegin cmNextRp cmCredsBegin cmNextCred cmDelete cmUpdate rdAt
  rels (first | exact q_consistency _ | exact q_cmAuth _ _ _ | exact q_cmCred _ _ _ | exact q_metaCount _ | exact q_cmFind _ _ _ | quiet)

theorem q_largeBlobs (q : Except Byte LbReq) : Rel (Quiet i.tick) (largeBlobs x i q) := by
  unfold largeBlobs lbSet lbAuth
  rels (first | exact q_hasPin _ | exact q_verifyToken _ _ _ _ _ | quiet)

theorem q_u2f (now : UInt32) (q : UReq) : Rel (Quiet now) (u2f x i q) := by
  unfold u2f uTouch
  rels (first | exact q_makeAuthData _ _ _ _ _ _ _ _ | quiet)
end
end Verif.Ctap
