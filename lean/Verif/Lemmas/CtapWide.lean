import Verif.Lemmas.CtapStep
import Verif.Lemmas.CtapCtr
import Verif.Spec.CtapResp
/-
The sizes of what the FIDO applet stores, and of what its commands answer: an invariant of all commands, for
every pattern of power cuts and storage errors.
-/
namespace Verif.Ctap
open Cmd Verif.Spec.Resp

/-- The sizes of a user entity. -/
structure UserOk (u : User) : Prop where
  id : u.id.length ≤ 64
  name : u.name.length ≤ 64
  disp : u.disp.length ≤ 64
  name0 : 0 ∉ u.name
  disp0 : 0 ∉ u.disp

/-- The sizes of a resident credential. -/
structure DcOk (d : Dc) : Prop where
  cid : d.cid.length = 70
  user : UserOk d.user
  blob : d.blob.length ≤ 32

/-- The sizes of an entry of a relying party. -/
structure MetaOk (m : Meta) : Prop where
  hash : m.hash.length = 32
  id : m.rpId.length ≤ 32

/-- The sizes of what is stored. -/
structure WideF (f : Flash) : Prop where
  len : ∀ d, f.dc = some d → d.recs.length ≤ 64
  recs : ∀ d, f.dc = some d → ∀ e ∈ d.recs, DcOk e
  metas : ∀ ms, f.dm = some ms → ∀ m ∈ ms, MetaOk m

/-- The sizes of what is in memory. -/
structure WideR (r : Ram) : Prop where
  num : r.ga.num ≤ 64
  rp : r.ga.req.rpHash.length = 32
  tok : r.tok.token.length = 32

/-- The command keeps the sizes, and its result satisfies `P`. -/
def Wd {α : Type} (m : M α) (P : α → Prop) : Prop :=
  ∀ A f r, WideF f → WideR r → wp A m (fun a f' r' => (WideF f' ∧ WideR r') ∧ P a) (fun _ f' r' => WideF f' ∧ WideR r')
    (fun f' _ => WideF f') f r

namespace Wd
variable {α β σ : Type} {P : α → Prop} {P' : β → Prop}

theorem pure {a : α} (h : P a) : Wd (Pure.pure a : M α) P := fun _ _ _ hf hr => wp_pure ⟨⟨hf, hr⟩, h⟩
theorem throw (e : Err) : Wd (MonadExcept.throw e : M α) P := fun _ _ _ hf hr => wp_throw ⟨hf, hr⟩
theorem fail (c : Byte) : Wd (fail c : M α) P := Wd.throw _
theorem failIf (b : Bool) (c : Byte) : Wd (failIf b c) (fun _ => b = false) := fun _ _ _ hf hr =>
  wp_failIf (fun _ => ⟨hf, hr⟩) (fun h => ⟨⟨hf, hr⟩, h⟩)
theorem mono {Q : α → Prop} {m : M α} (h : Wd m P) (hi : ∀ a, P a → Q a) : Wd m Q := fun A f r hf hr =>
  wp_mono (h A f r hf hr) (fun _ _ _ h => ⟨h.1, hi _ h.2⟩) (fun _ _ _ h => h) (fun _ _ h => h)
theorem bind {m : M α} {g : α → M β} (h : Wd m P) (h' : ∀ a, P a → Wd (g a) P') : Wd (m >>= g) P' := fun A f r hf hr =>
  wp_bind (wp_mono (h A f r hf hr) (fun a f' r' h1 => h' a h1.2 A f' r' h1.1.1 h1.1.2) (fun _ _ _ h => h) (fun _ _ h => h))
theorem get : Wd (Cmd.get : M Ram) WideR := fun _ _ _ hf hr => wp_get ⟨⟨hf, hr⟩, hr⟩
theorem mod {g : Ram → Ram} (h : ∀ r, WideR r → WideR (g r)) : Wd (Cmd.mod g : M Unit) (fun _ => True) := fun _ _ _ hf hr =>
  wp_mod ⟨⟨hf, h _ hr⟩, trivial⟩
theorem rdF {look : Flash → Option α} : Wd (Cmd.rdF look : M (Option α)) (fun _ => True) := fun _ _ _ hf hr =>
  wp_rdF (fun _ => ⟨⟨hf, hr⟩, trivial⟩) (fun _ => ⟨⟨hf, hr⟩, trivial⟩) (fun _ => hf)
theorem rdFP {look : Flash → Option α} {P : Option α → Prop} (h : ∀ f, WideF f → P (look f)) (h0 : P none) : Wd (Cmd.rdF look : M (Option α)) P := fun _ _ _ hf hr =>
  wp_rdF (fun _ => ⟨⟨hf, hr⟩, h _ hf⟩) (fun _ => ⟨⟨hf, hr⟩, h0⟩) (fun _ => hf)
theorem rdOrP {look : Flash → Option α} {e : Err} (h : ∀ f a, WideF f → look f = some a → P a) : Wd (Cmd.rdOr look e : M α) P := fun _ _ _ hf hr =>
  wp_rdOr (fun _ h1 => ⟨⟨hf, hr⟩, h _ _ hf h1⟩) (fun _ => ⟨hf, hr⟩) (fun _ => ⟨hf, hr⟩) (fun _ => hf)
theorem rdOr {look : Flash → Option α} {e : Err} : Wd (Cmd.rdOr look e : M α) (fun _ => True) := rdOrP fun _ _ _ _ => trivial
theorem wrF {upd : Flash → Option Flash} (h : ∀ f f', WideF f → upd f = some f' → WideF f') : Wd (Cmd.wrF upd : M Bool) (fun _ => True) := fun _ _ _ hf hr =>
  wp_wrF (fun _ _ h1 => ⟨⟨h _ _ hf h1, hr⟩, trivial⟩) (fun _ _ => ⟨⟨hf, hr⟩, trivial⟩) (fun _ => ⟨⟨hf, hr⟩, trivial⟩) (fun _ => hf)
theorem wrOr {upd : Flash → Option Flash} {e : Err} (h : ∀ f f', WideF f → upd f = some f' → WideF f') : Wd (Cmd.wrOr upd e : M Unit) (fun _ => True) := fun _ _ _ hf hr =>
  wp_wrOr (fun _ h1 => ⟨⟨h _ _ hf h1, hr⟩, trivial⟩) (fun _ => ⟨hf, hr⟩) (fun _ => ⟨hf, hr⟩) (fun _ => hf)
theorem caught {m : M α} (h : Wd m P) : Wd (Cmd.lift m.run : M _) (fun _ => True) := fun A f r hf hr =>
  wp_catch (wp_mono (h A f r hf hr) (fun _ _ _ h => ⟨h.1, trivial⟩) (fun _ _ _ h => ⟨h, trivial⟩) (fun _ _ h => h))
theorem ite {c : Prop} [Decidable c] {m n : M α} (h : c → Wd m P) (h' : ¬ c → Wd n P) : Wd (if c then m else n) P := by
  by_cases hc : c
  · rw [if_pos hc]; exact h hc
  · rw [if_neg hc]; exact h' hc
theorem any {m : M α} (h : Wd m P) : Wd m (fun _ => True) := h.mono fun _ _ => trivial

theorem rdRec {recs : Flash → Option (List β)} (hP : ∀ f l, WideF f → recs f = some l → ∀ b ∈ l, P' b) (i : Nat) : Wd (rdRec recs i) P' := by
  unfold Ctap.rdRec
  refine Wd.bind (P := fun l => ∀ b ∈ l, P' b) (rdOrP hP) fun l hl => ?_
  split
  · exact Wd.throw _
  · exact Wd.pure (hl _ (List.mem_of_getElem? ‹_›))

theorem scanUp {recs : Flash → Option (List β)} (hP : ∀ f l, WideF f → recs f = some l → ∀ b ∈ l, P' b) {body : Nat → β → σ → σ × Bool}
    {Q : σ → Prop} {R : σ → Nat → Prop} (k i : Nat) (s : σ) (hs : Q s)
    (h : ∀ p b s, p < i + k → P' b → Q s → (body p b s).2 = true → R (body p b s).1 p)
    (h' : ∀ p b s, P' b → Q s → (body p b s).2 = false → Q (body p b s).1) :
    Wd (scanUp recs body k i s) (fun o => R o.1 o.2 ∨ (Q o.1 ∧ o.2 = i + k)) := by
  induction k generalizing i s with
  | zero => exact Wd.pure (.inr ⟨hs, rfl⟩)
  | succ k ih =>
    unfold Ctap.scanUp
    refine Wd.bind (rdRec hP _) fun b hb => ?_
    have h1 := h i b s (by omega) hb hs
    have h2 := h' i b s hb hs
    cases e : body i b s with
    | mk s' c =>
      rw [e] at h1 h2
      cases c
      · refine (ih (i + 1) s' (h2 rfl) (fun p b s hp => h p b s (by omega))).mono fun o ho => ?_
        rw [show i + (k + 1) = i + 1 + k from by omega]
        exact ho
      · exact Wd.pure (.inl (h1 rfl))

theorem scanDown {recs : Flash → Option (List β)} (hP : ∀ f l, WideF f → recs f = some l → ∀ b ∈ l, P' b) {body : Nat → β → σ → σ}
    {Q : Nat → σ → Prop} (k : Nat) (s : σ) (hs : Q k s) (h : ∀ p b s, P' b → Q (p + 1) s → Q p (body p b s)) :
    Wd (scanDown recs body k s) (Q 0) := by
  induction k generalizing s with
  | zero => exact Wd.pure hs
  | succ k ih =>
    unfold Ctap.scanDown
    exact Wd.bind (rdRec hP _) fun b hb => ih _ (h k b s hb hs)

end Wd

/-! ### Storage -/

theorem rd_recs (f : Flash) (l : List Dc) (hf : WideF f) (h : rdRecs f = some l) : ∀ b ∈ l, DcOk b := by
  unfold rdRecs at h
  cases hd : f.dc with
  | none => rw [hd] at h; cases h
  | some d => rw [hd] at h; cases h; exact hf.recs d hd

theorem rd_len (f : Flash) (n : Nat) (hf : WideF f) (h : (rdRecs f).map (·.length) = some n) : n ≤ 64 := by
  unfold rdRecs at h
  cases hd : f.dc with
  | none => rw [hd] at h; cases h
  | some d => rw [hd] at h; cases h; exact hf.len d hd

theorem rd_metas (f : Flash) (l : List Meta) (hf : WideF f) (h : f.dm = some l) : ∀ b ∈ l, MetaOk b := hf.metas l h

theorem mem_setAt {α : Type} {l : List α} {p : Nat} {x e : α} (h : e ∈ setAt l p x) : e = x ∨ e ∈ l := by
  unfold setAt at h
  split at h
  · rcases List.mem_or_eq_of_mem_set h with h | h
    · exact .inr h
    · exact .inl h
  · rcases List.mem_append.1 h with h | h
    · exact .inr h
    · exact .inl (by simpa using h)

theorem wide_rec {p : Nat} {d : Dc} (hd : DcOk d) (hp : p < 64) (f f' : Flash) (hf : WideF f) (h : updRec p d f = some f') : WideF f' := by
  unfold updRec at h
  cases hdc : f.dc with
  | none =>
    rw [hdc] at h
    cases h
    exact ⟨fun d' h => by cases h; simp, fun d' h e he => by cases h; simp at he; rw [he]; exact hd, hf.metas⟩
  | some g =>
    rw [hdc] at h
    cases h
    refine ⟨fun d' h => ?_, fun d' h e he => ?_, hf.metas⟩
    · cases h
      have := hf.len g hdc
      show (setAt g.recs p d).length ≤ 64
      unfold setAt
      split
      · simpa using this
      · simp; omega
    · cases h
      rcases mem_setAt he with rfl | h
      · exact hd
      · exact hf.recs g hdc e h

theorem wide_meta {p : Nat} {m : Meta} (hm : MetaOk m) (f f' : Flash) (hf : WideF f) (h : updMeta p m f = some f') : WideF f' := by
  unfold updMeta at h
  cases hdm : f.dm with
  | none =>
    rw [hdm] at h
    cases h
    exact ⟨hf.len, hf.recs, fun l h e he => by cases h; simp at he; rw [he]; exact hm⟩
  | some g =>
    rw [hdm] at h
    cases h
    refine ⟨hf.len, hf.recs, fun l h e he => ?_⟩
    cases h
    rcases mem_setAt he with rfl | h
    · exact hm
    · exact hf.metas g hdm e h

theorem wide_attr {a : Attr} (f f' : Flash) (hf : WideF f) (h : updAttr a f = some f') : WideF f' := by
  unfold updAttr at h
  cases hdc : f.dc with
  | none => rw [hdc] at h; cases h
  | some g =>
    rw [hdc] at h
    cases h
    exact ⟨fun d' h => by cases h; exact hf.len g hdc, fun d' h => by cases h; exact hf.recs g hdc, hf.metas⟩

theorem wide_cert {g : Cert → Cert} (f f' : Flash) (hf : WideF f) (h : updCert g f = some f') : WideF f' := by
  unfold updCert at h
  cases hc : f.cert with
  | none => rw [hc] at h; cases h
  | some c => rw [hc] at h; cases h; exact ⟨hf.len, hf.recs, hf.metas⟩

/-- A write to files other than those of the resident credentials. -/
theorem wide_other {g : Flash → Flash} (h1 : ∀ f, (g f).dc = f.dc) (h2 : ∀ f, (g f).dm = f.dm) (f f' : Flash) (hf : WideF f)
    (h : some (g f) = some f') : WideF f' := by
  cases h
  exact ⟨by rw [h1]; exact hf.len, by rw [h1]; exact hf.recs, by rw [h2]; exact hf.metas⟩

/-- Other parts of the memory. -/
theorem WideR.same {r r' : Ram} (h : WideR r) (h1 : r'.ga = r.ga) (h2 : r'.tok.token = r.tok.token) : WideR r' :=
  ⟨by rw [h1]; exact h.num, by rw [h1]; exact h.rp, by rw [h2]; exact h.tok⟩

/-! ### The environment -/

/-- The sizes of what the crypto library returns. -/
structure ExtOk (x : Ext) : Prop where
  hmac : ∀ k m, (x.hmac k m).length = 32
  ka : ∀ n, (x.kaPub n).length = 64
  cbc : ∀ k v p, (x.cbcEnc k v p).length = p.length

/-- The sizes of random numbers. -/
structure InOk (i : In) : Prop where
  tok : i.rndTok.length = 32
  nonce : i.rndNonce.length = 16
  iv : i.rndIv.length = 16

/-- The sizes in a request. -/
def ReqOk : Req → Prop
  | .mc (.ok q) => q.rpHash.length = 32 ∧ q.rpId.length ≤ 32 ∧ UserOk q.user
  | .ga (.ok q) => q.rpHash.length = 32
  | .cm (.ok q) => UserOk q.user
  | .lb (.ok q) => ∀ n, q.get = some n → n ≤ 1236
  | _ => True

/-! ### Commands that keep the sizes -/

/-- The sizes are kept. -/
def KeepW : FRel := fun f r f' r' => WideF f → WideR r → WideF f' ∧ WideR r'

instance : Pre KeepW where
  refl := fun _ _ h h' => ⟨h, h'⟩
  trans := fun _ _ _ _ _ _ h1 h2 hf hr => h2 (h1 hf hr).1 (h1 hf hr).2

theorem Wd.of {α : Type} {m : M α} (h : Rel KeepW m) : Wd m (fun _ => True) := fun A f r hf hr =>
  wp_mono (h A f r) (fun _ _ _ h => ⟨h hf hr, trivial⟩) (fun _ _ _ h => h hf hr) (fun _ _ h => (h hf hr).1)

theorem kw_same {α : Type} {m : M α} (h : Rel Same m) : Rel KeepW m := h.mono fun f r f' r' h hf hr => by
  obtain ⟨rfl, rfl⟩ := h
  exact ⟨hf, hr⟩

macro "keepw" : tactic => `(tactic| first
  | (intro f r hf hr; exact ⟨hf, hr.same rfl rfl⟩)
  | (intro f r f' h hf hr; exact ⟨wide_cert f f' hf h, hr⟩)
  | (intro f r f' h hf hr; exact ⟨wide_attr f f' hf h, hr⟩))

variable {x : Ext} {i : In}

theorem kw_verifyToken (msg sig : Bytes) (proto : Nat) : Rel KeepW (verifyToken x i msg sig proto) := by
  unfold verifyToken
  rels (keepw)

theorem kw_clear (f : Flash) (r : Ram) : KeepW f r f { r with tok := r.tok.clearFlags } := by
  intro hf hr
  refine ⟨hf, hr.same rfl ?_⟩
  show (Tok.clearFlags _).token = _
  unfold Tok.clearFlags
  split <;> rfl

theorem kw_takePresence (p : Option Bytes) : Rel KeepW (takePresence i p) := by
  unfold takePresence
  rels (first | exact kw_same (same_wait _ _) | exact kw_clear | keepw)

theorem kw_mcAuth (q : McReq) : Rel KeepW (mcAuth x i q) := by
  unfold mcAuth
  rels (first | exact kw_same same_hasPin | exact kw_verifyToken _ _ _ | keepw)

theorem kw_gaCheck (q : GaReq) : Rel KeepW (gaCheck x i q) := by
  unfold gaCheck
  rels (first | exact kw_same same_hasPin | exact kw_same (same_emptyAuth _ _) | exact kw_verifyToken _ _ _ | (intro f r hf hr; exact ⟨hf, ⟨hr.num, hr.rp, hr.tok⟩⟩) | keepw)

theorem kw_increase : Rel KeepW increaseCounter := by
  unfold increaseCounter
  rels (keepw)

theorem kw_largeBlobKey (cid : Bytes) : Rel KeepW (largeBlobKey x cid) := kw_same (same_largeBlobKey x cid)

theorem kw_storeNewPin (b : Bytes) : Rel KeepW (storeNewPin x b) := by
  unfold storeNewPin setPin setPinRetries
  rels (keepw)

theorem kw_pinGate : Rel KeepW pinGate := by
  unfold pinGate pinRetries
  rels (first | exact kw_same same_hasPin | keepw)

theorem kw_shared (q : CpReq) : Rel KeepW (shared x q) := by
  unfold shared
  rels (keepw)

theorem kw_decryptOr (z b : Bytes) (p : Nat) : Rel KeepW (decryptOr x z b p) := by
  unfold decryptOr
  rels (keepw)

theorem kw_pinCompare (q : CpReq) (z : Bytes) (n : Byte) (b : Bool) : Rel KeepW (pinCompare x q z n b) := by
  unfold pinCompare setPinRetries verifyPinHash
  rels (first | exact kw_decryptOr _ _ _ | keepw)

theorem kw_cpSetPin (q : CpReq) : Rel KeepW (cpSetPin x q) := by
  unfold cpSetPin
  rels (first | exact kw_same same_hasPin | exact kw_shared _ | exact kw_decryptOr _ _ _ | exact kw_storeNewPin _ | keepw)

theorem kw_cpChangePin (q : CpReq) : Rel KeepW (cpChangePin x q) := by
  unfold cpChangePin
  rels (first | exact kw_pinGate | exact kw_shared _ | exact kw_decryptOr _ _ _ | exact kw_storeNewPin _ | exact kw_pinCompare _ _ _ _ | keepw)

theorem kw_cmAuth (q : CmReq) : Rel KeepW (cmAuth x i q) := by
  unfold cmAuth
  rels (first | exact kw_verifyToken _ _ _ | keepw)

theorem kw_lbAuth (q : LbReq) : Rel KeepW (lbAuth x i q) := by
  unfold lbAuth
  rels (first | exact kw_same same_hasPin | exact kw_verifyToken _ _ _ | keepw)

theorem kw_lbWrite (q : LbReq) (f : Flash) (r : Ram) (f' : Flash) (h : some { f with
      lbt := some (if q.offset == 0 then q.set else writeAt (f.lbt.getD []) q.offset q.set) } = some f') : KeepW f r f' r := by
  intro hf hr
  cases h
  exact ⟨⟨hf.len, hf.recs, hf.metas⟩, hr⟩

theorem kw_lbMove (f : Flash) (r : Ram) (f' : Flash) (h : (f.lbt.map fun b => { f with lb := some b, lbt := none }) = some f') : KeepW f r f' r := by
  intro hf hr
  cases hl : f.lbt with
  | none => rw [hl] at h; cases h
  | some b => rw [hl] at h; cases h; exact ⟨⟨hf.len, hf.recs, hf.metas⟩, hr⟩

theorem kw_lbSet (q : LbReq) : Rel KeepW (lbSet x i q) := by
  unfold lbSet
  rels (first | exact kw_lbAuth _ | keepw | exact kw_lbWrite q | exact kw_lbMove)

macro "fresh1" : tactic => `(tactic| (intro f r f' h hf hr; cases h; exact ⟨⟨hf.len, hf.recs, hf.metas⟩, hr⟩))
macro "fresh2" : tactic => `(tactic| (intro f r f' h hf hr; cases h; exact ⟨⟨(fun d h => by cases h; exact Nat.zero_le _), (fun d h e he => by cases h; cases he), hf.metas⟩, hr⟩))
macro "fresh3" : tactic => `(tactic| (intro f r f' h hf hr; cases h; exact ⟨⟨hf.len, hf.recs, (fun ms h m hm => by cases h; cases hm)⟩, hr⟩))

theorem kw_install (hi : InOk i) (b : Bool) : Rel KeepW (install i b) := by
  unfold install
  rels (first | (intro f r hf hr; exact ⟨hf, ⟨hr.num, hr.rp, hi.tok⟩⟩) | keepw | fresh1 | fresh2 | fresh3)

/-! ### Storing and deleting -/

theorem wd_rels {α : Type} {m : M α} (h : Rel KeepW m) : Wd m (fun _ => True) := Wd.of h

theorem wd_mcStore {q : McReq} {cid : Bytes} (hc : cid.length = 70) (h1 : q.rpHash.length = 32) (h2 : q.rpId.length ≤ 32) (h3 : UserOk q.user) :
    Wd (mcStore q cid) (fun _ => True) := by
  unfold mcStore
  refine Wd.bind Wd.rdOr fun n _ => ?_
  refine Wd.bind (Wd.of (Rel.scanUp _ _ _ _ _)) fun o _ => ?_
  obtain ⟨fd, p⟩ := o
  refine Wd.bind (Wd.failIf _ _) fun _ hp => ?_
  refine Wd.bind Wd.rdOr fun a _ => ?_
  refine Wd.bind (Wd.wrOr wide_attr) fun _ _ => ?_
  refine Wd.bind (Wd.wrOr (wide_rec ⟨hc, h3, ?_⟩ (by simpa using hp))) fun _ _ => ?_
  · show List.length (match q.credBlob with
      | some b => if b.length ≤ 32 then b else []
      | none => []) ≤ 32
    split
    · split
      · assumption
      · exact Nat.zero_le _
    · exact Nat.zero_le _
  refine Wd.bind Wd.rdOr fun k _ => ?_
  refine Wd.bind (Wd.of (Rel.scanUp _ _ _ _ _)) fun o _ => ?_
  obtain ⟨⟨fm, m⟩, j⟩ := o
  refine Wd.bind (Wd.wrOr (wide_meta ⟨h1, h2⟩)) fun _ _ => ?_
  exact Wd.wrOr wide_attr

theorem wd_consistency : Wd consistency (fun _ => True) := by
  unfold consistency
  refine Wd.bind Wd.rdOr fun a _ => ?_
  refine Wd.ite (fun _ => ?_) (fun _ => Wd.pure trivial)
  refine Wd.bind (Wd.rdFP (P := fun n => n.getD 0 ≤ 64) (fun f hf => ?_) (Nat.zero_le _)) fun n hn => ?_
  · cases h : (rdRecs f).map (·.length) with
    | none => exact Nat.zero_le _
    | some n => exact rd_len f n hf h
  have rest : Wd (do
      let k ← Cmd.rdOr (fun f => f.dm.map (·.length)) (.code Code.unhandled)
      if k > 0 && a.index.toNat ≥ 64 then throw (.ub .oob)
      let (m, j) ← Ctap.scanUp (fun f => f.dm)
        (fun _ m (_ : Option Meta) => if m.slots.getLsbD a.index.toNat then (some m, true) else (none, false)) k 0 none
      match m with
      | some m => Cmd.wrOr (updMeta j { m with slots := m.slots &&& ~~~(BitVec.twoPow 64 a.index.toNat) }) (.code Code.unhandled)
      | none => pure ()
      Cmd.wrOr (updAttr { a with numbers := if a.del then a.numbers - 1 else a.numbers, add := false, del := false })
        (.code Code.unhandled) : M Unit) (fun _ => True) := by
    refine Wd.bind Wd.rdOr fun k _ => ?_
    refine Wd.ite (fun _ => Wd.bind (P := fun _ => True) (Wd.throw _) fun _ _ => ?_) (fun _ => ?_)
    all_goals
      refine Wd.bind (Wd.scanUp (Q := fun o : Option Meta => o = none) (R := fun o _ => ∀ m, o = some m → MetaOk m) rd_metas _ _ _ rfl
        (fun p b s _ hb _ _ m e => ?_) (fun p b s _ _ h => ?_)) fun o ho => ?_
      · revert e
        split
        · intro e; cases e; exact hb
        · intro e; cases e
      · revert h
        split
        · intro h; cases h
        · exact fun _ => rfl
      obtain ⟨m, j⟩ := o
      cases m with
      | none => exact Wd.wrOr wide_attr
      | some m =>
        have hm : MetaOk m := by
          rcases ho with h | ⟨h, _⟩
          · exact h m rfl
          · cases h
        exact Wd.bind (Wd.wrOr (wide_meta ⟨hm.hash, hm.id⟩)) fun _ _ => Wd.wrOr wide_attr
  refine Wd.ite (fun hp => ?_) (fun _ => rest)
  refine Wd.bind (Wd.rdOrP (P := DcOk) fun f d hf h => ?_) fun d hd => ?_
  · cases hr : rdRecs f with
    | none => rw [hr] at h; cases h
    | some l => rw [hr] at h; exact rd_recs f l hf hr d (List.mem_of_getElem? h)
  refine Wd.ite (fun _ => ?_) (fun _ => rest)
  exact Wd.bind (Wd.wrOr (wide_rec ⟨hd.cid, hd.user, hd.blob⟩ (by omega))) fun _ _ => rest

theorem wd_cmFind (q : CmReq) (n : Byte) : Wd (cmFind q n) (fun o => DcOk o.1 ∧ o.2 < 64) := by
  unfold cmFind
  refine Wd.bind Wd.get fun r _ => ?_
  refine Wd.bind (Wd.failIf _ _) fun _ _ => ?_
  refine Wd.bind (Wd.failIf _ _) fun _ _ => ?_
  refine Wd.bind (Wd.rdOrP rd_len) fun n hn => ?_
  refine Wd.bind (Wd.scanUp (Q := fun o : Option Dc => o = none) (R := fun o p => ∀ d, o = some d → DcOk d ∧ p < 64) rd_recs _ _ _ rfl
    (fun p b s hp hb _ _ m e => ?_) (fun p b s _ _ h => ?_)) fun o ho => ?_
  · refine ⟨?_, by omega⟩
    revert e
    unfold cidBody
    split
    · intro e; cases e
    · split
      · intro e; cases e; exact hb
      · intro e; cases e
  · revert h
    unfold cidBody
    split
    · exact fun _ => rfl
    · split
      · intro h; cases h
      · exact fun _ => rfl
  obtain ⟨d, p⟩ := o
  refine Wd.bind (Wd.mod fun r hr => hr.same rfl rfl) fun _ _ => ?_
  cases d with
  | none => exact Wd.fail _
  | some d =>
    rcases ho with h | ⟨h, _⟩
    · exact Wd.pure (h d rfl)
    · cases h

theorem wd_cmDelete (q : CmReq) (n : Byte) : Wd (cmDelete q n) Sized := by
  unfold cmDelete
  refine Wd.bind (wd_cmFind q n) fun o ho => ?_
  obtain ⟨d, p⟩ := o
  refine Wd.bind Wd.rdOr fun a _ => ?_
  refine Wd.bind (Wd.wrOr wide_attr) fun _ _ => ?_
  refine Wd.bind (Wd.wrOr (wide_rec ⟨ho.1.cid, ho.1.user, ho.1.blob⟩ ho.2)) fun _ _ => ?_
  refine Wd.bind Wd.rdOr fun k _ => ?_
  refine Wd.bind (Wd.scanUp (Q := fun o : Option Meta => o = none) (R := fun o _ => ∀ m, o = some m → MetaOk m) rd_metas _ _ _ rfl
    (fun p b s _ hb _ _ m e => ?_) (fun p b s _ _ h => ?_)) fun o ho => ?_
  · revert e
    unfold delBody
    split
    · intro e; cases e; exact hb
    · intro e; cases e
  · revert h
    unfold delBody
    split
    · intro h; cases h
    · exact fun _ => rfl
  obtain ⟨m, j⟩ := o
  cases m with
  | none => exact Wd.bind (Wd.wrOr wide_attr) fun _ _ => Wd.pure trivial
  | some m =>
    have hm : MetaOk m := by
      rcases ho with h | ⟨h, _⟩
      · exact h m rfl
      · cases h
    exact Wd.bind (Wd.wrOr (wide_meta ⟨hm.hash, hm.id⟩)) fun _ _ => Wd.bind (Wd.wrOr wide_attr) fun _ _ => Wd.pure trivial

theorem wd_cmUpdate {q : CmReq} (hq : UserOk q.user) (n : Byte) : Wd (cmUpdate q n) Sized := by
  unfold cmUpdate
  refine Wd.bind (wd_cmFind q n) fun o ho => ?_
  obtain ⟨d, p⟩ := o
  refine Wd.bind (Wd.failIf _ _) fun _ _ => ?_
  exact Wd.bind (Wd.wrOr (wide_rec ⟨ho.1.cid, hq, ho.1.blob⟩ ho.2)) fun _ _ => Wd.pure trivial

/-! ### Responses -/

theorem length_makeCid (hx : ExtOk x) {kh rnd rp : Bytes} (h1 : rnd.length = 16) (h2 : rp.length = 32) (dc cp : Byte) (alg : UInt32) :
    (makeCid x kh rnd dc cp rp alg).length = 70 := by
  unfold makeCid khTag le32
  simp [hx.hmac, h1, h2]

theorem wd_makeAuthData (hx : ExtOk x) (hi : InOk i) {rp : Bytes} (hr : rp.length = 32) (flags : Byte) (alg : UInt32) (dc cp : Byte) :
    Wd (makeAuthData x i rp flags alg dc cp) (fun a => a.rp = rp ∧ a.flags = flags ∧
      (if flags &&& 0x40 != 0 then ∃ cid, a.att = some cid ∧ cid.length = 70 else a.att = none)) := by
  unfold makeAuthData
  refine Wd.bind (Wd.of kw_increase) fun c _ => ?_
  refine Wd.ite (fun h => ?_) (fun h => ?_)
  · refine Wd.bind Wd.get fun r _ => Wd.bind (Wd.failIf _ _) fun _ _ => Wd.bind Wd.rdOr fun kh _ => Wd.pure ⟨rfl, rfl, ?_⟩
    rw [if_pos h]
    exact ⟨_, rfl, length_makeCid hx hi.nonce hr _ _ _⟩
  · refine Wd.pure ⟨rfl, rfl, ?_⟩
    rw [if_neg h]

theorem wd_lbk (hx : ExtOk x) (b : Bool) (cid : Bytes) :
    Wd (if b then (do let k ← largeBlobKey x cid; pure (some k)) else pure none : M (Option Bytes)) (fun o => ∀ k, o = some k → k.length = 32) := by
  refine Wd.ite (fun _ => ?_) (fun _ => Wd.pure nofun)
  refine Wd.bind (P := fun k => k.length = 32) ?_ fun k hk => Wd.pure fun k' h => by cases h; exact hk
  unfold largeBlobKey
  exact Wd.bind Wd.rdOr fun he _ => Wd.pure (hx.hmac _ _)

theorem wd_lbk_jp (hx : ExtOk x) (b : Bool) (cid : Bytes) {F : Option Bytes → M β} {P : β → Prop} (h : ∀ o, (∀ k, o = some k → k.length = 32) → Wd (F o) P) :
    Wd (if b then (do let lbk ← (do let k ← largeBlobKey x cid; pure (some k)); F lbk) else (do let lbk ← pure none; F lbk) : M β) P := by
  refine Wd.ite (fun _ => ?_) (fun _ => Wd.bind (P := fun o => ∀ k, o = some k → k.length = 32) (Wd.pure nofun) h)
  have := wd_lbk hx true cid
  rw [if_pos rfl] at this
  exact Wd.bind this h

theorem wd_hs_jp (o : Option HmacSecret) {g : HmacSecret → M Bytes} (hg : ∀ h, Wd (g h) (fun b => b.length ≤ 80)) {F : Option Bytes → M β} {P : β → Prop}
    (h : ∀ hs, hs.isSome = o.isSome → (∀ b, hs = some b → b.length ≤ 80) → Wd (F hs) P) :
    Wd (match (generalizing := false) o with
      | none => do let hs ← pure none; F hs
      | some h => do let o ← g h; let hs ← pure (some o); F hs : M β) P := by
  cases o with
  | none => exact Wd.bind (P := fun o => o = none) (Wd.pure rfl) fun o ho => by subst ho; exact h _ rfl nofun
  | some s =>
    refine Wd.bind (hg s) fun b hb => Wd.bind (P := fun o => o = some b) (Wd.pure rfl) fun o ho => ?_
    subst ho
    exact h _ rfl fun b' e => by cases e; exact hb

/-- The flags of a registration. -/
def regFlags (e u : Bool) : Byte := 0x41 ||| (if e then 0x80 else 0) ||| (if u then 0x04 else 0)

theorem regFlags_bits : ∀ e u, (regFlags e u &&& 0x40 != 0) = true ∧ (regFlags e u).toNat.testBit 6 = true ∧ (regFlags e u).toNat.testBit 7 = e := by
  decide

theorem wd_mcFinish (hx : ExtOk x) (hi : InOk i) {q : McReq} (hq : ReqOk (.mc (.ok q))) (uv : Bool) : Wd (mcFinish x i q uv) Sized := by
  obtain ⟨h1, h2, h3⟩ := hq
  unfold mcFinish
  refine Wd.bind (Wd.failIf _ _) fun _ _ => ?_
  refine Wd.bind (wd_makeAuthData hx hi h1 (regFlags (mcExt q) uv) q.alg _ q.protect) fun ad had => ?_
  obtain ⟨b1, b2, b3⟩ := regFlags_bits (mcExt q) uv
  obtain ⟨a1, a2, a3⟩ := had
  rw [if_pos b1] at a3
  obtain ⟨cid, a3, a4⟩ := a3
  have fin : Wd (do
      let _ ← Cmd.rdOr (rdCert (·.key)) (.code Code.unhandled)
      let _ ← Cmd.rdOr (rdCert (fun c => some c.data)) (.code Code.unhandled)
      let lbk ← if q.lbk then (do let k ← largeBlobKey x (ad.att.getD []); pure (some k)) else pure none
      return .mc ⟨ad, q.credBlob.map fun b => b.length ≤ 32 && q.rk == .yes,
        if q.protect != 0 then some q.protect else none, q.hmacSecret, q.cdh, lbk⟩ : M Resp) Sized := by
    refine Wd.bind Wd.rdOr fun _ _ => Wd.bind Wd.rdOr fun _ _ => ?_
    refine wd_lbk_jp hx q.lbk _ fun lbk hl => Wd.pure ?_
    refine ⟨by rw [a1]; exact h1, ⟨cid, a3, a4⟩, by rw [a2]; exact b2, ?_, hl⟩
    rw [a2, b3]
    unfold mcExt mcOut unlessEmpty field
    dsimp only
    cases q.credBlob <;> cases q.hmacSecret <;> by_cases hp : q.protect = 0 <;> simp [hp]
  refine Wd.ite (fun _ => ?_) (fun _ => fin)
  refine Wd.bind (wd_mcStore ?_ h1 h2 h3) fun _ _ => fin
  rw [a3]
  exact a4

theorem wd_makeCredential (hx : ExtOk x) (hi : InOk i) {req : Except Byte McReq} (hq : ReqOk (.mc req)) : Wd (makeCredential x i req) Sized := by
  unfold makeCredential
  cases req with
  | error c => exact Wd.fail _
  | ok q =>
    refine Wd.bind wd_consistency fun _ _ => ?_
    refine Wd.bind (Wd.of (kw_same (same_emptyAuth _ _))) fun _ _ => ?_
    refine Wd.bind (Wd.failIf _ _) fun _ _ => ?_
    refine Wd.bind (Wd.failIf _ _) fun _ _ => ?_
    refine Wd.bind (Wd.failIf _ _) fun _ _ => ?_
    refine Wd.bind (Wd.of (kw_same same_hasPin)) fun p _ => ?_
    refine Wd.bind (Wd.failIf _ _) fun _ _ => ?_
    have fin : ∀ uv, Wd (do mcExclude x i q uv q.exclude i.junk; takePresence i q.pinAuth; mcFinish x i q uv : M Resp) Sized := fun uv =>
      Wd.bind (Wd.of (kw_same (same_mcExclude x i q uv _ _))) fun _ _ => Wd.bind (Wd.of (kw_takePresence _)) fun _ _ => wd_mcFinish hx hi hq uv
    refine Wd.ite (fun _ => Wd.bind (P := fun _ => True) (Wd.pure trivial) fun uv _ => fin uv) (fun _ => Wd.bind (Wd.of (kw_mcAuth q)) fun uv _ => fin uv)

theorem length_overlay {old new : Bytes} (h : old.length = 70) : (overlay old new).length = 70 := by
  unfold overlay
  split
  · simp; omega
  · exact h

theorem wd_gaAllow (q : GaReq) (uv : Bool) : ∀ (l : List Bytes) {d : Dc}, DcOk d → Wd (gaAllow x q uv l d) (fun o => DcOk o.1)
  | [], _, _ => Wd.fail _
  | e :: l, d, hd => by
    have hd' : DcOk { d with cid := overlay d.cid e } := ⟨length_overlay hd.cid, hd.user, hd.blob⟩
    unfold gaAllow
    refine Wd.ite (fun _ => wd_gaAllow q uv l hd') (fun _ => ?_)
    refine Wd.bind (Wd.of (kw_same (same_verifyKh x _))) fun o _ => ?_
    cases o with
    | none => exact wd_gaAllow q uv l hd'
    | some key =>
      refine Wd.ite (fun _ => wd_gaAllow q uv l hd') (fun _ => ?_)
      refine Wd.ite (fun _ => ?_) (fun _ => Wd.pure hd')
      refine Wd.bind Wd.rdOr fun n _ => ?_
      refine Wd.bind (Wd.scanUp (Q := fun s : Dc × Bool => DcOk s.1) (R := fun s _ => DcOk s.1) rd_recs _ _ _ hd'
        (fun _ _ _ _ hb _ _ => hb) (fun _ _ _ hb _ _ => hb)) fun o ho => ?_
      obtain ⟨⟨d', hit⟩, j⟩ := o
      have hd'' : DcOk d' := ho.elim id (·.1)
      exact Wd.ite (fun _ => Wd.pure hd'') (fun _ => wd_gaAllow q uv l hd'')

theorem dcOk_zero : DcOk Dc.zero := ⟨rfl, ⟨by decide, by decide, by decide, by decide, by decide⟩, by decide⟩

theorem wd_gaSelect : Wd (gaSelect x) (fun o => DcOk o.1) := by
  unfold gaSelect
  refine Wd.bind Wd.get fun r _ => ?_
  refine Wd.ite (fun _ => ?_) (fun _ => ?_)
  · refine Wd.bind (wd_gaAllow _ _ _ dcOk_zero) fun o ho => ?_
    exact Wd.bind (Wd.mod fun r hr => ⟨Nat.le_of_ble_eq_true rfl, hr.rp, hr.tok⟩) fun _ _ => Wd.pure ho
  · have fin : Wd (do
        let r ← Cmd.get
        let d ← Ctap.rdRec rdRecs (r.ga.list.getD r.ga.ctr 0)
        match ← verifyKh x d.cid with
        | none => Ctap.fail Code.unhandled
        | some key => return (d, key) : M (Dc × Bytes)) (fun o => DcOk o.1) := by
      refine Wd.bind Wd.get fun r _ => Wd.bind (Wd.rdRec rd_recs _) fun d hd => ?_
      refine Wd.bind (Wd.of (kw_same (same_verifyKh x _))) fun o _ => ?_
      cases o with
      | none => exact Wd.fail _
      | some key => exact Wd.pure hd
    refine Wd.ite (fun _ => ?_) (fun _ => fin)
    refine Wd.bind (Wd.rdOrP rd_len) fun n hn => ?_
    refine Wd.bind (Wd.mod fun r hr => ⟨Nat.le_of_ble_eq_true rfl, hr.rp, hr.tok⟩) fun _ _ => ?_
    refine Wd.bind (Wd.scanDown (Q := fun k l => l.length + k ≤ n) rd_recs n [] (by simp) (fun p b l _ h => ?_)) fun l hl => ?_
    · unfold listBody
      (repeat' split) <;> (try simp only [List.length_append, List.length_cons, List.length_nil]) <;> omega
    refine Wd.bind (Wd.mod fun r hr => ⟨?_, hr.rp, hr.tok⟩) fun _ _ => ?_
    · show l.length ≤ 64
      omega
    exact Wd.bind (Wd.failIf _ _) fun _ _ => fin

theorem length_encrypt (hx : ExtOk x) (hi : InOk i) (k b : Bytes) (p : Nat) : (encrypt x i k b p).length ≤ 16 + b.length := by
  unfold encrypt
  split
  · rw [hx.cbc]; omega
  · dsimp only
    split
    · rw [List.length_append, hx.cbc, hi.iv]; omega
    · rw [hx.cbc]; omega

theorem length_hmacOut (hx : ExtOk x) (he cid salt : Bytes) (n : Nat) (uv : Bool) : (hmacOut x he cid salt n uv).length ≤ 64 := by
  unfold hmacOut
  dsimp only
  split
  · simp [hx.hmac]
  · simp [hx.hmac]

theorem wd_gaHmac (hx : ExtOk x) (hi : InOk i) (cid : Bytes) (h : HmacSecret) : Wd (gaHmac x i cid h) (fun b => b.length ≤ 80) := by
  unfold gaHmac
  refine Wd.bind Wd.get fun r _ => ?_
  have fin : ∀ h : HmacSecret, Wd (do
      let he ← Cmd.rdOr (rdCert (·.he)) (.ub .uninit)
      if !((if h.proto == 1 then h.saltLen else h.saltLen - 16) == 32 || (if h.proto == 1 then h.saltLen else h.saltLen - 16) == 64) ||
          !(h.proto == 1 || h.proto == 2) then throw (.ub .uninit)
      else
        if r.ga.ctr + 1 == r.ga.num then
          Cmd.mod fun r => { r with ga := { r.ga with req := { r.ga.req with
            hs := r.ga.req.hs.map fun h => { h with key := List.replicate 64 0 } } } }
        else pure ()
        return encrypt x i h.key (hmacOut x he cid h.salt (if h.proto == 1 then h.saltLen else h.saltLen - 16) r.ga.uv) h.proto : M Bytes)
      (fun b => b.length ≤ 80) := by
    intro h
    refine Wd.bind Wd.rdOr fun he _ => Wd.ite (fun _ => Wd.throw _) (fun _ => ?_)
    have l : ∀ n, (encrypt x i h.key (hmacOut x he cid h.salt n r.ga.uv) h.proto).length ≤ 80 := fun n => by
      have h1 := length_encrypt hx hi h.key (hmacOut x he cid h.salt n r.ga.uv) h.proto
      have h2 := length_hmacOut hx he cid h.salt n r.ga.uv
      omega
    refine Wd.ite (fun _ => Wd.bind (Wd.mod fun r hr => ⟨hr.num, hr.rp, hr.tok⟩) fun _ _ => Wd.pure (l _)) (fun _ => Wd.pure (l _))
  refine Wd.ite (fun _ => ?_) (fun _ => fin _)
  refine Wd.bind (Wd.failIf _ _) fun _ _ => ?_
  split
  · exact Wd.bind (P := fun _ => True) (Wd.fail _) fun _ _ => fin _
  · refine Wd.bind (Wd.failIf _ _) fun _ _ => ?_
    split
    · exact Wd.bind (P := fun _ => True) (Wd.fail _) fun _ _ => fin _
    · exact Wd.bind (Wd.mod fun r hr => ⟨hr.num, hr.rp, hr.tok⟩) fun _ _ => fin _

/-- The flags of an assertion. -/
def getFlags (e u p : Bool) : Byte := (if e then 0x80 else 0) ||| (if u then 0x04 else 0) ||| (if p then 0x01 else 0)

theorem getFlags_bits : ∀ e u p, (getFlags e u p &&& 0x40 != 0) = false ∧ (getFlags e u p).toNat.testBit 6 = false ∧ (getFlags e u p).toNat.testBit 7 = e := by
  decide

theorem wd_gaFinish (hx : ExtOk x) (hi : InOk i) : Wd (gaFinish x i) Sized := by
  unfold gaFinish
  refine Wd.bind wd_gaSelect fun o ho => ?_
  obtain ⟨d, key⟩ := o
  refine Wd.bind Wd.get fun r hr => ?_
  have fin : Wd (do
      let r' ← Cmd.get
      Ctap.failIf (!protectOk d.cid (r.ga.req.allow.length > 0) r'.ga.uv) Code.noCredentials
      let hs ← match r.ga.req.hs with
        | none => pure none
        | some h => do
          let o ← gaHmac x i d.cid h
          pure (some o)
      let ad ← makeAuthData x i r.ga.req.rpHash (getFlags (r.ga.req.credBlob || r.ga.req.hs.isSome) r'.ga.uv r'.ga.up) (Cid.alg d.cid) (Cid.dc d.cid) (Cid.cp d.cid)
      if !algOk r'.sm2 (Cid.alg d.cid) then throw (.ub .oob)
      else do
        let lbk ← if d.lbk then (do let k ← largeBlobKey x d.cid; pure (some k)) else pure none
        Cmd.mod fun r => { r with ga := { r.ga with ctr := r.ga.ctr + 1, timer := i.tick' } }
        return .ga ⟨d.cid, ad, if r.ga.req.credBlob then some d.blob else none, hs, Cid.alg d.cid, key, r.ga.req.cdh,
          if Cid.dc d.cid != 0 then some d.user.id else none,
          if Cid.dc d.cid != 0 && (r'.ga.uv && r'.ga.num > 1) then some (d.user.name, d.user.disp) else none,
          if r.ga.req.allow.length == 0 && (r.ga.ctr == 0) && r'.ga.num > 1 then some r'.ga.num else none, lbk⟩ : M Resp) Sized := by
    refine Wd.bind Wd.get fun r' hr' => ?_
    refine Wd.bind (Wd.failIf _ _) fun _ _ => ?_
    refine wd_hs_jp r.ga.req.hs (fun h => wd_gaHmac hx hi d.cid h) fun hs hs1 hs2 => ?_
    refine Wd.bind (wd_makeAuthData hx hi hr.rp _ _ _ _) fun ad had => ?_
    obtain ⟨b1, b2, b3⟩ := getFlags_bits (r.ga.req.credBlob || r.ga.req.hs.isSome) r'.ga.uv r'.ga.up
    obtain ⟨a1, a2, a3⟩ := had
    rw [if_neg (by rw [b1]; decide)] at a3
    refine Wd.ite (fun _ => Wd.throw _) (fun _ => ?_)
    refine wd_lbk_jp hx d.lbk _ fun lbk hl => ?_
    refine Wd.bind (Wd.mod fun r hr => ⟨hr.num, hr.rp, hr.tok⟩) fun _ _ => Wd.pure ?_
    refine ⟨by rw [a1]; exact hr.rp, a3, ho.cid, by rw [a2]; exact b2, ?_, hl, ?_, hs2, ?_, ?_, ?_⟩
    · rw [a2, b3, ← hs1]
      unfold gaOut unlessEmpty field
      dsimp only
      cases r.ga.req.credBlob <;> cases hs <;> simp
    · intro b h
      dsimp only at h
      split at h
      · cases h; exact ho.blob
      · cases h
    · intro b h
      dsimp only at h
      split at h
      · cases h; exact ho.user.id
      · cases h
    · intro p h
      dsimp only at h
      split at h
      · rename_i hc
        cases h
        simp only [Bool.and_eq_true] at hc
        refine ⟨ho.user.name, ho.user.disp, ho.user.name0, ho.user.disp0, ?_⟩
        dsimp only
        rw [if_pos hc.1]
        rfl
      · cases h
    · intro n h
      dsimp only at h
      split at h
      · cases h; exact hr'.num
      · cases h
  refine Wd.ite (fun _ => ?_) (fun _ => fin)
  refine Wd.bind (Wd.of (kw_takePresence _)) fun _ _ => ?_
  exact Wd.bind (Wd.mod fun r hr => ⟨hr.num, hr.rp, hr.tok⟩) fun _ _ => fin

theorem wd_getAssertion (hx : ExtOk x) (hi : InOk i) {req : Except Byte GaReq} (hq : ReqOk (.ga req)) : Wd (getAssertion x i req) Sized := by
  unfold getAssertion
  refine Wd.bind (Wd.mod fun r hr => ⟨hr.num, hr.rp, hr.tok⟩) fun _ _ => ?_
  refine Wd.bind wd_consistency fun _ _ => ?_
  cases req with
  | error c => exact Wd.fail _
  | ok q =>
    refine Wd.bind (Wd.mod fun r hr => ⟨hr.num, hq, hr.tok⟩) fun _ _ => ?_
    exact Wd.bind (Wd.of (kw_gaCheck q)) fun _ _ => wd_gaFinish hx hi

theorem wd_getNextAssertion (hx : ExtOk x) (hi : InOk i) : Wd (getNextAssertion x i) Sized := by
  unfold getNextAssertion
  refine Wd.bind Wd.get fun r _ => ?_
  refine Wd.bind (Wd.failIf _ _) fun _ _ => ?_
  refine Wd.bind (Wd.failIf _ _) fun _ _ => ?_
  exact Wd.bind (Wd.failIf _ _) fun _ _ => wd_gaFinish hx hi

theorem wd_clientPin (hx : ExtOk x) (hi : InOk i) (req : Except Byte CpReq) : Wd (clientPin x i req) Sized := by
  have e : ∀ {m : M Resp}, Rel KeepW m → Wd m (fun r => r = .empty) → Wd m Sized := fun _ h => h.mono fun a h => by rw [h]; exact trivial
  unfold clientPin
  cases req with
  | error c => exact Wd.fail _
  | ok q =>
    refine Wd.ite (fun _ => Wd.bind Wd.rdF fun n _ => Wd.pure trivial) (fun _ => ?_)
    refine Wd.ite (fun _ => Wd.bind Wd.get fun r _ => Wd.pure (hx.ka _)) (fun _ => ?_)
    refine Wd.ite (fun _ => ?_) (fun _ => ?_)
    · unfold cpSetPin
      refine Wd.bind (Wd.of (kw_same same_hasPin)) fun _ _ => Wd.bind (Wd.failIf _ _) fun _ _ => Wd.bind (Wd.of (kw_shared _)) fun z _ => ?_
      exact Wd.bind (Wd.failIf _ _) fun _ _ => Wd.bind (Wd.of (kw_decryptOr _ _ _)) fun _ _ => Wd.bind (Wd.of (kw_storeNewPin _)) fun _ _ => Wd.pure trivial
    refine Wd.ite (fun _ => ?_) (fun _ => ?_)
    · unfold cpChangePin
      refine Wd.bind (Wd.of kw_pinGate) fun _ _ => Wd.bind (Wd.of (kw_shared _)) fun z _ => ?_
      refine Wd.bind (Wd.failIf _ _) fun _ _ => Wd.bind (Wd.of (kw_pinCompare _ _ _ _)) fun _ _ => ?_
      exact Wd.bind (Wd.of (kw_decryptOr _ _ _)) fun _ _ => Wd.bind (Wd.of (kw_storeNewPin _)) fun _ _ => Wd.pure trivial
    refine Wd.ite (fun _ => ?_) (fun _ => Wd.pure trivial)
    unfold cpGetToken
    refine Wd.bind (Wd.of kw_pinGate) fun _ _ => Wd.bind (Wd.of (kw_shared _)) fun z _ => Wd.bind (Wd.of (kw_pinCompare _ _ _ _)) fun _ _ => ?_
    unfold setPinRetries
    refine Wd.bind (Wd.wrOr wide_cert) fun _ _ => ?_
    refine Wd.bind (Wd.mod fun r hr => ⟨hr.num, hr.rp, ?_⟩) fun _ _ => ?_
    · dsimp only
      (repeat' split) <;> exact hi.tok
    refine Wd.bind Wd.get fun r hr => Wd.pure ?_
    have := length_encrypt hx hi z r.tok.token q.proto
    rw [hr.tok] at this
    exact this

theorem pop_le (s : BitVec 64) : ∀ n, popCount s n ≤ n
  | 0 => Nat.le_refl _
  | n + 1 => by
    have := pop_le s n
    unfold popCount
    split <;> omega

theorem wd_cmCred (hx : ExtOk x) (b : Bool) : Wd (cmCred x b) Sized := by
  unfold cmCred
  refine Wd.bind Wd.get fun r _ => ?_
  dsimp only
  split
  · exact Wd.bind (Wd.mod fun r hr => hr.same rfl rfl) fun _ _ => Wd.fail _
  · refine Wd.bind (Wd.mod fun r hr => hr.same rfl rfl) fun _ _ => ?_
    refine Wd.bind (Wd.rdRec rd_recs _) fun d hd => ?_
    refine Wd.bind (Wd.of (kw_same (same_verifyKh x _))) fun o _ => ?_
    cases o with
    | none => exact Wd.fail _
    | some key =>
      refine Wd.bind (Wd.failIf _ _) fun _ _ => ?_
      refine wd_lbk_jp hx d.lbk _ fun lbk hl => Wd.pure ?_
      refine ⟨hd.cid, hd.user.id, hd.user.name, hd.user.disp, hd.user.name0, hd.user.disp0, fun n h => ?_, hl⟩
      dsimp only at h
      split at h
      · cases h
        exact pop_le _ _
      · cases h

theorem wd_cmNextCred (hx : ExtOk x) (q : CmReq) : Wd (cmNextCred x q) Sized := by
  unfold cmNextCred
  refine Wd.bind Wd.get fun r _ => Wd.ite (fun _ => ?_) (fun _ => ?_)
  · exact Wd.bind (Wd.mod fun r hr => hr.same rfl rfl) fun _ _ => Wd.fail _
  · exact Wd.bind (Wd.mod fun r hr => hr.same rfl rfl) fun _ _ => wd_cmCred hx _

theorem wd_metaCount : Wd metaCount (fun _ => True) := by
  unfold metaCount
  exact Wd.bind Wd.rdF fun _ _ => Wd.pure trivial

theorem wd_cmCredsBegin (hx : ExtOk x) (q : CmReq) (n : Byte) : Wd (cmCredsBegin x q n) Sized := by
  unfold cmCredsBegin
  refine Wd.bind Wd.get fun r _ => Wd.bind (Wd.failIf _ _) fun _ _ => Wd.bind (Wd.failIf _ _) fun _ _ => ?_
  refine Wd.bind wd_metaCount fun n _ => Wd.bind (Wd.mod fun r hr => hr.same rfl rfl) fun _ _ => ?_
  refine Wd.bind (Wd.scanUp (Q := fun _ => True) (R := fun _ _ => True) rd_metas _ _ _ trivial
    (fun _ _ _ _ _ _ _ => trivial) (fun _ _ _ _ _ _ => trivial)) fun o _ => ?_
  obtain ⟨m, j⟩ := o
  refine Wd.bind (Wd.mod fun r hr => hr.same rfl rfl) fun _ _ => ?_
  cases m with
  | none => exact Wd.fail _
  | some m => exact Wd.bind (Wd.mod fun r hr => hr.same rfl rfl) fun _ _ => wd_cmCred hx _

/-- The sizes of a response, but for the number of relying parties: the number of entries of a file. -/
def Sized' (r : Resp) : Prop := (∀ id h n, r = .rp id h (some n) → n < 2 ^ 32) → Sized r

theorem wd_cmRpsBegin (n : Byte) : Wd (cmRpsBegin n) Sized' := by
  unfold cmRpsBegin
  refine Wd.bind Wd.get fun r _ => Wd.bind (Wd.failIf _ _) fun _ _ => Wd.bind (Wd.failIf _ _) fun _ _ => ?_
  refine Wd.bind wd_metaCount fun n _ => Wd.bind (Wd.mod fun r hr => hr.same rfl rfl) fun _ _ => ?_
  refine Wd.bind (Wd.scanDown (Q := fun _ _ => True) rd_metas _ _ trivial (fun _ _ _ _ _ => trivial)) fun o _ => ?_
  obtain ⟨f, c⟩ := o
  have fin : Wd (do
      let r ← Cmd.get
      let m ← rdAt (fun f => f.dm) r.cm.idx
      return .rp m.rpId m.hash (some c) : M Resp) Sized' := by
    refine Wd.bind Wd.get fun r _ => ?_
    refine Wd.bind (P := MetaOk) ?_ fun m hm => Wd.pure fun h => ⟨hm.id, hm.hash, fun n e => by cases e; exact h _ _ _ rfl⟩
    unfold rdAt
    exact Wd.ite (fun _ => Wd.fail _) (fun _ => Wd.rdRec rd_metas _)
  cases f with
  | none => exact fin
  | some p => exact Wd.bind (Wd.mod fun r hr => hr.same rfl rfl) fun _ _ => fin

theorem wd_cmNextRp (q : CmReq) : Wd (cmNextRp q) Sized := by
  unfold cmNextRp
  refine Wd.bind Wd.get fun r _ => Wd.ite (fun _ => ?_) (fun _ => ?_)
  · exact Wd.bind (Wd.mod fun r hr => hr.same rfl rfl) fun _ _ => Wd.fail _
  · refine Wd.bind (Wd.mod fun r hr => hr.same rfl rfl) fun _ _ => ?_
    refine Wd.bind (Wd.scanUp (Q := fun s : Option Meta × Bool => ∀ m, s.1 = some m → MetaOk m)
      (R := fun s _ => ∀ m, s.1 = some m → MetaOk m) rd_metas _ _ _ nofun
      (fun _ _ _ _ hb _ _ m e => by cases e; exact hb) (fun _ _ _ hb _ _ m e => by cases e; exact hb)) fun o ho => ?_
    obtain ⟨⟨m, hit⟩, j⟩ := o
    have hm : ∀ e, m = some e → MetaOk e := ho.elim id (·.1)
    have fin : Wd (match (generalizing := false) m with
        | none => throw (.ub .uninit)
        | some m => return .rp m.rpId m.hash none : M Resp) Sized := by
      cases m with
      | none => exact Wd.throw _
      | some m => exact Wd.pure ⟨(hm m rfl).id, (hm m rfl).hash, nofun⟩
    exact Wd.ite (fun _ => Wd.bind (Wd.mod fun r hr => hr.same rfl rfl) fun _ _ => fin) (fun _ => fin)

theorem wd_credMgmt (hx : ExtOk x) {req : Except Byte CmReq} (hq : ReqOk (.cm req)) : Wd (credMgmt x i req) Sized' := by
  have s' : ∀ {m : M Resp}, Wd m Sized → Wd m Sized' := fun h => h.mono fun _ h _ => h
  unfold credMgmt
  cases req with
  | error c => exact Wd.fail _
  | ok q =>
    refine Wd.bind wd_consistency fun _ _ => ?_
    have fin : ∀ numbers : Byte, Wd (if q.sub == 1 then do
          let r ← Cmd.get
          Ctap.failIf r.tok.rp.isSome Code.pinAuthInvalid
          return .credsMeta numbers.toNat (64 - (numbers.toNat : Int))
        else if q.sub == 2 then cmRpsBegin numbers
        else if q.sub == 3 then cmNextRp q
        else if q.sub == 4 then cmCredsBegin x q numbers
        else if q.sub == 5 then cmNextCred x q
        else if q.sub == 6 then cmDelete q numbers
        else if q.sub == 7 then cmUpdate q numbers
        else return .empty : M Resp) Sized' := by
      intro n
      refine Wd.ite (fun _ => s' ?_) (fun _ => ?_)
      · refine Wd.bind Wd.get fun r _ => Wd.bind (Wd.failIf _ _) fun _ _ => Wd.pure ?_
        have := n.toNat_lt
        exact ⟨this, by omega, by omega⟩
      refine Wd.ite (fun _ => wd_cmRpsBegin n) (fun _ => s' ?_)
      refine Wd.ite (fun _ => wd_cmNextRp q) (fun _ => ?_)
      refine Wd.ite (fun _ => wd_cmCredsBegin hx q n) (fun _ => ?_)
      refine Wd.ite (fun _ => wd_cmNextCred hx q) (fun _ => ?_)
      refine Wd.ite (fun _ => wd_cmDelete q n) (fun _ => ?_)
      exact Wd.ite (fun _ => wd_cmUpdate hq n) (fun _ => Wd.pure trivial)
    exact Wd.ite (fun _ => Wd.bind (Wd.of (kw_cmAuth q)) fun n _ => fin n) (fun _ => fin 0)

theorem wd_lbSet (q : LbReq) : Wd (lbSet x i q) Sized := by
  unfold lbSet
  have fin : Wd (do
      let r ← Cmd.get
      Ctap.failIf (q.offset != r.lb.off) Code.invalidSeq
      lbAuth x i q
      Ctap.failIf (q.offset + q.set.length > r.lb.len) Code.invalidParameter
      Cmd.wrOr (fun f => some { f with
          lbt := some (if q.offset == 0 then q.set else writeAt (f.lbt.getD []) q.offset q.set) })
        (.code Code.unhandled)
      Cmd.mod fun r => { r with lb := { r.lb with off := r.lb.off + q.set.length } }
      if q.offset + q.set.length == r.lb.len then do
        Cmd.mod fun r => { r with lb := { r.lb with len := r.lb.len - 16 } }
        let b ← Cmd.rdOr (fun f => f.lbt) (.code Code.unhandled)
        Ctap.failIf ((x.sha (b.take (r.lb.len - 16))).take 16 != (b.drop (r.lb.len - 16)).take 16) Code.integrity
        Cmd.wrOr (fun f => f.lbt.map fun b => { f with lb := some b, lbt := none }) (.code Code.unhandled)
        return .empty
      else return .empty : M Resp) Sized := by
    refine Wd.bind Wd.get fun r _ => Wd.bind (Wd.failIf _ _) fun _ _ => Wd.bind (Wd.of (kw_lbAuth q)) fun _ _ => ?_
    refine Wd.bind (Wd.failIf _ _) fun _ _ => Wd.bind (Wd.wrOr fun f f' hf h => ?_) fun _ _ => ?_
    · cases h; exact ⟨hf.len, hf.recs, hf.metas⟩
    refine Wd.bind (Wd.mod fun r hr => hr.same rfl rfl) fun _ _ => Wd.ite (fun _ => ?_) (fun _ => Wd.pure trivial)
    refine Wd.bind (Wd.mod fun r hr => hr.same rfl rfl) fun _ _ => Wd.bind Wd.rdOr fun b _ => ?_
    refine Wd.bind (Wd.failIf _ _) fun _ _ => Wd.bind (Wd.wrOr fun f f' hf h => ?_) fun _ _ => Wd.pure trivial
    cases hl : f.lbt with
    | none => rw [hl] at h; cases h
    | some b => rw [hl] at h; cases h; exact ⟨hf.len, hf.recs, hf.metas⟩
  exact Wd.ite (fun _ => Wd.bind (Wd.mod fun r hr => hr.same rfl rfl) fun _ _ => fin) (fun _ => fin)

theorem wd_largeBlobs {req : Except Byte LbReq} (hq : ReqOk (.lb req)) : Wd (largeBlobs x i req) Sized := by
  unfold largeBlobs
  cases req with
  | error c => exact Wd.fail _
  | ok q =>
    cases e : q.get with
    | none =>
      dsimp only
      rw [e]
      exact wd_lbSet q
    | some n =>
      dsimp only
      rw [e]
      refine Wd.bind Wd.rdOr fun size _ => Wd.bind (Wd.failIf _ _) fun h _ => Wd.bind Wd.rdOr fun b _ => Wd.pure ?_
      have hn := hq n e
      show (List.take _ _).length ≤ 1236
      rw [List.length_take]
      split <;> omega

theorem wd_handle (hx : ExtOk x) (hi : InOk i) {q : Req} (hq : ReqOk q) : Wd (handle x i q) Sized' := by
  have s' : ∀ {m : M Resp}, Wd m Sized → Wd m Sized' := fun h => h.mono fun _ h _ => h
  cases q with
  | mc q => exact s' (wd_makeCredential hx hi hq)
  | ga q => exact s' (wd_getAssertion hx hi hq)
  | gna => exact s' (wd_getNextAssertion hx hi)
  | info => exact s' (Wd.bind (Wd.of (kw_same same_hasPin)) fun _ _ => Wd.pure trivial)
  | cp q => exact s' (wd_clientPin hx hi q)
  | reset =>
    refine s' ?_
    show Wd (resetData i) _
    unfold resetData
    exact Wd.bind (Wd.failIf _ _) fun _ _ => Wd.bind (Wd.of (kw_install hi _)) fun _ _ => Wd.pure trivial
  | cm q => exact wd_credMgmt hx hq
  | sel => exact s' (Wd.bind (Wd.of (kw_same (same_wait _ _))) fun _ _ => Wd.pure trivial)
  | lb q => exact s' (wd_largeBlobs hq)
  | other c => exact Wd.fail _

end Verif.Ctap
