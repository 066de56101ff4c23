import Verif.Lemmas.CtapFrame
import Verif.Spec.Ctap
/-
What a successful makeCredential or getAssertion means.
-/
namespace Verif.Ctap
open Cmd

/-- Verifying an authentication code. -/
theorem authenticates_iff {x : Ext} {key msg sig : Bytes} {proto : Nat} :
    verifyMac x key msg sig proto = true ↔ Authenticates x key msg sig proto := by
  unfold verifyMac Authenticates
  by_cases hp : proto = 1
  · subst hp
    simp only [beq_self_eq_true, if_true]
    exact ⟨fun h => (eq_of_beq h).symm, fun h => by rw [h]; exact beq_self_eq_true _⟩
  · rw [if_neg (by simp [hp])]
    simp only [hp, if_false]
    exact ⟨fun h => (eq_of_beq h).symm, fun h => by rw [h]; exact beq_self_eq_true _⟩

theorem authenticates_of {x : Ext} {key msg sig : Bytes} {proto : Nat} (h : verifyMac x key msg sig proto = true) :
    Authenticates x key msg sig proto := authenticates_iff.mp h

/-- Only the credential store changes. -/
structure Stored (f : Flash) (r : Ram) (f' : Flash) (r' : Ram) : Prop where
  cert : f'.cert = f.cert
  lb : f'.lb = f.lb
  lbt : f'.lbt = f.lbt
  ram : r' = r

instance : Pre Stored where
  refl _ _ := ⟨rfl, rfl, rfl, rfl⟩
  trans _ _ _ _ _ _ a b := ⟨b.cert.trans a.cert, b.lb.trans a.lb, b.lbt.trans a.lbt, b.ram.trans a.ram⟩

/-- Nothing changes. -/
def Same : FRel := fun f r f' r' => f' = f ∧ r' = r
instance : Pre Same where
  refl _ _ := ⟨rfl, rfl⟩
  trans _ _ _ _ _ _ a b := ⟨b.1.trans a.1, b.2.trans a.2⟩

namespace Stored
theorem updRec' {p : Nat} {d : Dc} {f f' : Flash} {r : Ram} (h : updRec p d f = some f') : Stored f r f' r := by
  unfold updRec at h
  split at h <;> (cases h; exact ⟨rfl, rfl, rfl, rfl⟩)
theorem updMeta' {p : Nat} {d : Meta} {f f' : Flash} {r : Ram} (h : updMeta p d f = some f') : Stored f r f' r := by
  unfold updMeta at h
  split at h <;> (cases h; exact ⟨rfl, rfl, rfl, rfl⟩)
theorem updAttr' {d : Attr} {f f' : Flash} {r : Ram} (h : updAttr d f = some f') : Stored f r f' r := by
  unfold updAttr at h
  cases hd : f.dc with
  | none => rw [hd] at h; cases h
  | some _ => rw [hd] at h; cases h; exact ⟨rfl, rfl, rfl, rfl⟩
end Stored

macro "stored" : tactic => `(tactic| first
  | (intro _ _ _ h; exact Stored.updRec' h)
  | (intro _ _ _ h; exact Stored.updMeta' h)
  | (intro _ _ _ h; exact Stored.updAttr' h))

theorem st_consistency : Rel Stored consistency := by
  unfold consistency
  rels (stored)
theorem st_mcStore (q : McReq) (cid : Bytes) : Rel Stored (mcStore q cid) := by
  unfold mcStore
  rels (stored)

theorem same_hasPin : Rel Same hasPin := by
  unfold hasPin
  rels (skip)
theorem same_wait (i : In) (c : Byte) : Rel Same (wait i c) := by
  unfold wait
  rels (skip)
theorem same_emptyAuth (i : In) (a : Option Bytes) : Rel Same (emptyAuth i a) := by
  unfold emptyAuth
  rels (first | exact same_hasPin | exact same_wait _ _)
theorem same_verifyKh (x : Ext) (cid : Bytes) : Rel Same (verifyKh x cid) := by
  unfold verifyKh
  rels (skip)
theorem same_mcExclude (x : Ext) (i : In) (q : McReq) (uv : Bool) (l : List Bytes) (b : Bytes) :
    Rel Same (mcExclude x i q uv l b) := by
  induction l generalizing b with
  | nil => exact Rel.pure _
  | cons d l ih =>
    unfold mcExclude
    rels (first | exact ih _ | exact same_verifyKh _ _ | exact same_wait _ _)
theorem same_largeBlobKey (x : Ext) (cid : Bytes) : Rel Same (largeBlobKey x cid) := by
  unfold largeBlobKey
  rels (skip)

section
variable {A : Fault → Prop} {f : Flash} {r : Ram} {α : Type}

/-- Using a frame: the rest may assume it, and failures are not restricted. -/
theorem wp_frame {R : FRel} {m : M α} (h : Rel R m) {Q : α → Flash → Ram → Prop}
    (hQ : ∀ a f' r', R f r f' r' → Q a f' r') :
    wp A m Q (fun _ _ _ => True) (fun _ _ => True) f r :=
  wp_mono (h A f r) hQ (fun _ _ _ _ => trivial) (fun _ _ _ => trivial)

theorem wp_same {m : M α} (h : Rel Same m) {Q : α → Flash → Ram → Prop} (hQ : ∀ a, Q a f r) :
    wp A m Q (fun _ _ _ => True) (fun _ _ => True) f r :=
  wp_frame h fun a f' r' h' => by rw [h'.1, h'.2]; exact hQ a

/-- A successful wait for the user. -/
theorem wp_wait (i : In) (c : Byte) {Q : Unit → Flash → Ram → Prop} (h : i.present → Q () f r) :
    wp A (wait i c) Q (fun _ _ _ => True) (fun _ _ => True) f r := by
  unfold wait
  cases hn : i.nfc with
  | true => exact wp_pure (h (Or.inl hn))
  | false =>
    cases hp : i.presence with
    | ok => exact wp_pure (h (Or.inr hp))
    | cancel => exact wp_fail trivial
    | timeout => exact wp_fail trivial

theorem wp_takePresence (i : In) (a : Option Bytes) {Q : Unit → Flash → Ram → Prop}
    (h : (r.tok.presentFlag = true ∨ i.present) → Q () f { r with tok := r.tok.clearFlags }) :
    wp A (takePresence i a) Q (fun _ _ _ => True) (fun _ _ => True) f r := by
  unfold takePresence
  apply wp_bind
  apply wp_get
  wzeta
  split
  · rename_i hc
    apply wp_mod
    exact h (Or.inl (Bool.and_eq_true_iff.mp hc).2)
  · apply wp_bind
    apply wp_wait
    intro hp
    apply wp_mod
    exact h (Or.inr hp)

theorem clearFlags_flags (t : Tok) : t.clearFlags.verifiedFlag = false ∧ t.clearFlags.presentFlag = false ∧
    (t.clearFlags.inUse = true → t.clearFlags.perms = t.perms &&& ~~~permLbw) := by
  unfold Tok.clearFlags Tok.verifiedFlag Tok.presentFlag
  cases h : t.inUse <;> simp [h]

end

section
variable (x : Ext) (i : In) {A : Fault → Prop} {f : Flash} {r : Ram}

theorem wp_increase {Q : UInt32 → Flash → Ram → Prop}
    (h : ∀ c f', rdCert (·.ctr) f = some c → updCert (fun e => { e with ctr := some (c + 1) }) f = some f' →
      Q (c + 1) f' r) :
    wp A increaseCounter Q (fun _ _ _ => True) (fun _ _ => True) f r := by
  unfold increaseCounter
  apply wp_bind
  apply wp_rdOr
  · intro c hc
    apply wp_bind
    apply wp_wrOr
    · intro f' hf
      exact wp_pure (h c f' hc hf)
    all_goals (intros; trivial)
  all_goals (intros; trivial)

theorem wp_authData {rp : Bytes} {flags : Byte} {alg : UInt32} {dc cp : Byte} {Q : AuthData → Flash → Ram → Prop}
    (h : ∀ c f', rdCert (·.ctr) f = some c → updCert (fun e => { e with ctr := some (c + 1) }) f = some f' →
      (flags &&& 0x40 ≠ 0 → ∀ kh, rdCert (·.kh) f = some kh → algOk r.sm2 alg = true →
        Q ⟨rp, flags, c + 1, some (makeCid x kh i.rndNonce dc (if cp == 0 then 1 else cp) rp alg)⟩ f' r) ∧
      (flags &&& 0x40 = 0 → Q ⟨rp, flags, c + 1, none⟩ f' r)) :
    wp A (makeAuthData x i rp flags alg dc cp) Q (fun _ _ _ => True) (fun _ _ => True) f r := by
  unfold makeAuthData
  apply wp_bind
  apply wp_increase
  intro c f' hc hf
  have h' := h c f' hc hf
  by_cases hfl : flags &&& 0x40 = 0
  · rw [if_neg (by simp [hfl])]
    exact wp_pure (h'.2 hfl)
  · rw [if_pos (by simp [hfl])]
    apply wp_bind
    apply wp_get
    apply wp_bind
    apply wp_failIf
    · intro _; trivial
    · intro ha
      apply wp_bind
      apply wp_rdOr
      · intro kh hk
        apply wp_pure
        refine h'.1 hfl kh ?_ (by simpa using ha)
        unfold updCert at hf
        unfold rdCert at hk ⊢
        cases hd : f.cert with
        | none => rw [hd] at hf; cases hf
        | some cc => rw [hd] at hf; cases hf; exact hk
      all_goals (intros; trivial)

theorem rpOk_iff {t : Tok} {h : Bytes} (hr : t.rpOk h = true) : ∀ g, t.rp = some g → g = h := by
  intro g hg
  unfold Tok.rpOk at hr
  rw [hg] at hr
  exact eq_of_beq hr

theorem wp_mcAuth (q : McReq) {Q : Bool → Flash → Ram → Prop}
    (h : ∀ b t, (b = true → Authorized x r.tok permMc q.rpHash q.cdh q.pinAuth (q.proto.getD 0)) →
      t.presentFlag = r.tok.presentFlag → Q b f { r with tok := t }) :
    wp A (mcAuth x i q) Q (fun _ _ _ => True) (fun _ _ => True) f r := by
  unfold mcAuth
  apply wp_bind
  apply wp_same same_hasPin
  intro p
  have h0 := h false r.tok (fun h => by cases h) rfl
  cases ha : q.pinAuth with
  | none => exact wp_pure h0
  | some a =>
    simp only
    cases p with
    | false => exact wp_pure h0
    | true =>
      simp only [Bool.not_true, Bool.false_eq_true, if_false]
      apply wp_bind
      apply wp_get
      apply wp_bind
      apply wp_failIf
      · intro _; trivial
      intro _
      apply wp_bind
      apply wp_verifyToken
      · intro _
        apply wp_bind
        exact wp_fail trivial
      intro hu
      apply wp_bind
      apply wp_failIf
      · intro _; trivial
      intro hm
      apply wp_bind
      apply wp_failIf
      · intro _; trivial
      intro hp
      apply wp_bind
      apply wp_failIf
      · intro _; trivial
      intro hr
      apply wp_bind
      apply wp_failIf
      · intro _; trivial
      intro hv
      apply wp_bind
      apply wp_mod
      apply wp_pure
      refine h true _ (fun _ => ⟨hu, ?_, ?_, rpOk_iff (by simpa using hr), a, ha, authenticates_of (by simpa using hm)⟩) rfl
      · unfold Tok.verifiedFlag at hv
        rw [hu] at hv
        simpa using hv
      · unfold Tok.has at hp
        simpa using hp

/-- The large-blob key of a credential. -/
def BlobKeyOf (f : Flash) (cid k : Bytes) : Prop :=
  ∃ he, rdCert (·.he) f = some he ∧ k = x.hmac (lbTweak he) ((Cid.nonce cid).take 16)

theorem wp_largeBlobKey (cid : Bytes) {Q : Bytes → Flash → Ram → Prop} (h : ∀ k, BlobKeyOf x f cid k → Q k f r) :
    wp A (largeBlobKey x cid) Q (fun _ _ _ => True) (fun _ _ => True) f r := by
  unfold largeBlobKey
  apply wp_bind
  apply wp_rdOr
  · intro he hhe
    apply wp_pure
    exact h _ ⟨he, hhe, rfl⟩
  all_goals (intro _; trivial)

/-- What a successful makeCredential did. -/
structure McDone (q : McReq) (f : Flash) (r : Ram) (m : McResp) (f' : Flash) (r' : Ram) : Prop where
  rp : m.ad.rp = q.rpHash
  cdh : m.cdh = q.cdh
  uv : m.ad.uv = true → Authorized x r.tok permMc q.rpHash q.cdh q.pinAuth (q.proto.getD 0)
  up : m.ad.up = true
  present : r.tok.presentFlag = true ∨ i.present
  ctr : ∃ c, rdCert (·.ctr) f = some c ∧ m.ad.ctr = c + 1 ∧ f'.cert = f.cert.map fun e => { e with ctr := some (c + 1) }
  cid : ∃ kh, rdCert (·.kh) f = some kh ∧ m.ad.att =
    some (makeCid x kh i.rndNonce (if q.rk == .yes then 1 else 0) (if q.protect == 0 then 1 else q.protect) q.rpHash q.alg)
  lb : f'.lb = f.lb ∧ f'.lbt = f.lbt
  tok : r'.tok.verifiedFlag = false ∧ r'.tok.presentFlag = false ∧ (r'.tok.inUse = true → r'.tok.perms &&& permLbw = 0)
  ram : r' = { r with tok := r'.tok }
  lbk : ∀ k, m.lbk = some k → ∃ c, m.ad.att = some c ∧ BlobKeyOf x f c k

theorem mcFlags (e uv : Bool) :
    (0x41 ||| (if e then 0x80 else 0) ||| (if uv then 0x04 else 0) : Byte) &&& 0x40 ≠ 0 ∧
    ((0x41 ||| (if e then 0x80 else 0) ||| (if uv then 0x04 else 0) : Byte) &&& 0x04 != 0) = uv ∧
    ((0x41 ||| (if e then 0x80 else 0) ||| (if uv then 0x04 else 0) : Byte) &&& 0x01 != 0) = true := by
  cases e <;> cases uv <;> decide

theorem updCert_map {g : Cert → Cert} {f f' : Flash} (h : updCert g f = some f') :
    f' = { f with cert := f.cert.map g } := by
  unfold updCert at h
  cases hd : f.cert with
  | none => rw [hd] at h; cases h
  | some c => rw [hd] at h; cases h; rfl

theorem and_not_lbw (p : Byte) : p &&& ~~~permLbw &&& permLbw = 0 := by
  rw [UInt8.and_assoc]
  have : (~~~permLbw &&& permLbw : Byte) = 0 := by decide
  rw [this]
  simp

/-- The end of makeCredential. -/
local macro "mctail" x:term ", " h:term : tactic => `(tactic| (
  apply wp_bind
  apply wp_rdOr
  · intro _ _
    apply wp_bind
    apply wp_rdOr
    · intro _ _
      wzeta
      apply wp_ite <;> intro _
      · apply wp_bind
        apply wp_bind
        apply wp_largeBlobKey $x _
        intro k hk
        apply wp_pure
        exact wp_pure ($h (fun k' e => by cases e; exact hk))
      · apply wp_bind
        apply wp_pure
        exact wp_pure ($h nofun)
    all_goals (intros; trivial)
  all_goals (intros; trivial)))

theorem wp_makeCredential (q : McReq) :
    wp A (makeCredential x i (.ok q)) (fun a f' r' => ∃ m, a = .mc m ∧ McDone x i q f r m f' r')
      (fun _ _ _ => True) (fun _ _ => True) f r := by
  unfold makeCredential
  apply wp_bind
  apply wp_frame st_consistency
  intro _ f1 r1 h1
  have hr1 := h1.ram
  subst hr1
  apply wp_bind
  apply wp_same (same_emptyAuth _ _)
  intro _
  apply wp_bind
  apply wp_failIf
  · intro _; trivial
  intro _
  apply wp_bind
  apply wp_failIf
  · intro _; trivial
  intro _
  apply wp_bind
  apply wp_failIf
  · intro _; trivial
  intro _
  apply wp_bind
  apply wp_same same_hasPin
  intro p
  apply wp_bind
  apply wp_failIf
  · intro _; trivial
  intro _
  have main : ∀ uv t, (uv = true → Authorized x r1.tok permMc q.rpHash q.cdh q.pinAuth (q.proto.getD 0)) →
      t.presentFlag = r1.tok.presentFlag →
      wp A (do mcExclude x i q uv q.exclude i.junk; takePresence i q.pinAuth; mcFinish x i q uv)
        (fun a f' r' => ∃ m, a = .mc m ∧ McDone x i q f r1 m f' r') (fun _ _ _ => True) (fun _ _ => True)
        f1 { r1 with tok := t } := by
    intro uv t huv ht
    apply wp_bind
    apply wp_same (same_mcExclude _ _ _ _ _ _)
    intro _
    apply wp_bind
    apply wp_takePresence
    intro hp
    have hp' : r1.tok.presentFlag = true ∨ i.present := by
      rcases hp with h | h
      · exact Or.inl (ht ▸ h)
      · exact Or.inr h
    have hclear := clearFlags_flags t
    generalize htc : t.clearFlags = tc at hclear
    unfold mcFinish
    apply wp_bind
    apply wp_failIf
    · intro _; trivial
    intro _
    wzeta
    apply wp_bind
    apply wp_authData
    intro c f2 hc hf2
    have hfl := mcFlags (mcExt q) uv
    refine ⟨fun _ kh hkh _ => ?_, fun h => absurd h hfl.1⟩
    have fin : ∀ f' r' l, Stored f2 { r1 with tok := tc } f' r' → (∀ k, l = some k → BlobKeyOf x f' (makeCid x kh i.rndNonce
        (if q.rk == .yes then 1 else 0) (if q.protect == 0 then 1 else q.protect) q.rpHash q.alg) k) →
        ∃ m, (Resp.mc ⟨⟨q.rpHash, 0x41 ||| (if mcExt q then 0x80 else 0) ||| (if uv then 0x04 else 0), c + 1,
          some (makeCid x kh i.rndNonce (if q.rk == .yes then 1 else 0) (if q.protect == 0 then 1 else q.protect)
            q.rpHash q.alg)⟩, q.credBlob.map fun b => b.length ≤ 32 && q.rk == .yes,
          if q.protect != 0 then some q.protect else none, q.hmacSecret, q.cdh, l⟩) = .mc m ∧
          McDone x i q f r1 m f' r' := by
      intro f' r' l hs hl
      refine ⟨_, rfl, rfl, rfl, ?_, ?_, hp', ⟨c, ?_, rfl, ?_⟩, ⟨kh, ?_, rfl⟩, ?_, ?_, ?_, ?_⟩
      · intro h
        exact huv (hfl.2.1.symm.trans h)
      · exact hfl.2.2
      · rw [← hc]; unfold rdCert; rw [h1.cert]
      · rw [hs.cert, updCert_map hf2, h1.cert]
      · rw [← hkh]; unfold rdCert; rw [h1.cert]
      · rw [hs.lb, hs.lbt, updCert_map hf2]
        exact ⟨h1.lb, h1.lbt⟩
      · rw [hs.ram]
        refine ⟨hclear.1, hclear.2.1, fun h => ?_⟩
        rw [hclear.2.2 h, and_not_lbw]
      · rw [hs.ram]
      · intro k hk
        obtain ⟨he, e1, e2⟩ := hl k hk
        refine ⟨_, rfl, he, ?_, e2⟩
        rw [← e1]
        unfold rdCert
        rw [hs.cert, updCert_map hf2, h1.cert]
        cases f.cert <;> rfl
    show wp A _ _ _ _ f2 _
    wzeta
    apply wp_ite <;> intro _
    · apply wp_bind
      apply wp_frame (st_mcStore _ _)
      intro _ f3 r3 h3
      mctail x, (fin f3 r3 _ h3)
    · mctail x, (fin f2 _ _ (Pre.refl _ _))
  show wp A _ _ _ _ f1 r1
  wzeta
  split
  · apply wp_bind
    apply wp_pure
    exact main false r1.tok (fun h => by cases h) rfl
  · apply wp_bind
    apply wp_mcAuth
    intro b t hb ht
    exact main b t hb ht

end
end Verif.Ctap
