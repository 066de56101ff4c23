import Verif.Lemmas.CtapHmac
import Verif.Lemmas.CtapCtr
/-
Large-blob keys in responses.
-/
namespace Verif.Ctap
open Cmd

variable (x : Ext) (i : In) {A : Fault → Prop} {f : Flash} {r : Ram}

/-- The device secrets stay. -/
def CertKept : FRel := fun f _ f' _ => f'.cert = f.cert
instance : Pre CertKept where
  refl _ _ := rfl
  trans _ _ _ _ _ _ a b := b.trans a

/-- A listed credential has its large-blob key. -/
def KeyListed (f : Flash) (a : Resp) : Prop := ∀ c, a = .cred c → ∀ k, c.lbk = some k → BlobKeyOf x f c.cid k

theorem BlobKeyOf.cert {x : Ext} {f f' : Flash} (h : f'.cert = f.cert) {c k : Bytes} (hk : BlobKeyOf x f' c k) : BlobKeyOf x f c k := by
  obtain ⟨he, h1, h2⟩ := hk
  exact ⟨he, by rw [← h1]; unfold rdCert; rw [h], h2⟩

theorem wp_cmCredKey (b : Bool) : wp A (cmCred x b) (fun a _ _ => KeyListed x f a) (fun _ _ _ => True) (fun _ _ => True) f r := by
  unfold cmCred
  apply wp_bind
  apply wp_get
  wzeta
  split
  · exact wp_bind (wp_mod (wp_fail trivial))
  apply wp_bind
  apply wp_mod
  apply wp_bind
  apply wp_frame (R := Same) (by unfold rdRec; rels (skip))
  rintro d f' r' ⟨rfl, rfl⟩
  apply wp_bind
  apply wp_same (same_verifyKh _ _)
  intro key
  cases key with
  | none => exact wp_fail trivial
  | some key =>
    apply wp_bind
    apply wp_failIf
    · intro _; trivial
    intro _
    show wp A _ _ _ _ f' _
    wzeta
    apply wp_ite <;> intro _
    · apply wp_bind
      apply wp_bind
      apply wp_largeBlobKey x _
      intro k hk
      apply wp_pure
      apply wp_pure
      intro c hc k' hk'
      cases hc
      cases hk'
      exact hk
    · apply wp_bind
      apply wp_pure
      apply wp_pure
      intro c hc k' hk'
      cases hc
      cases hk'

theorem kept_cmAuth (q : CmReq) : Rel CertKept (cmAuth x i q) := by
  unfold cmAuth verifyToken
  rels (intros; rfl)

def Resp.notCred : Resp → Prop
  | .cred _ => False
  | _ => True

theorem gives_listed {m : M Resp} (h : Gives Resp.notCred m) : wp (fun _ => True) m (fun a _ _ => KeyListed x f a) (fun _ _ _ => True)
    (fun _ _ => True) f r :=
  wp_mono (h f r) (fun _ _ _ h c e => by rw [e] at h; exact h.elim) (fun _ _ _ _ => trivial) (fun _ _ _ => trivial)

theorem cm_key {s : St} {i : In} {q : Except Byte CmReq} {env : Env} {c : CmCred} (h : (step x s (.cbor i (.cm q)) env).2 = .resp (.cred c)) {k : Bytes}
    (hk : c.lbk = some k) : BlobKeyOf x s.flash c.cid k := by
  have key : ∀ r, wp (fun _ => True) (credMgmt x i q) (fun a _ _ => KeyListed x s.flash a) (fun _ _ _ => True) (fun _ _ => True) s.flash r := by
    intro r
    cases q with
    | error c => exact wp_fail trivial
    | ok q =>
      unfold credMgmt
      apply wp_bind
      apply wp_frame st_consistency
      intro _ f1 r1 h1
      have fin : ∀ n f2 r2, f2.cert = s.flash.cert → wp (fun _ => True) (do
          if q.sub == 1 then do
            let r ← Cmd.get
            failIf r.tok.rp.isSome Code.pinAuthInvalid
            return .credsMeta n.toNat (64 - (n.toNat : Int))
          else if q.sub == 2 then cmRpsBegin n
          else if q.sub == 3 then cmNextRp q
          else if q.sub == 4 then cmCredsBegin x q n
          else if q.sub == 5 then cmNextCred x q
          else if q.sub == 6 then cmDelete q n
          else if q.sub == 7 then cmUpdate q n
          else return .empty : M Resp) (fun a _ _ => KeyListed x s.flash a) (fun _ _ _ => True) (fun _ _ => True) f2 r2 := by
        intro n f2 r2 h2
        suffices hs : wp (fun _ => True) (do
          if q.sub == 1 then do
            let r ← Cmd.get
            failIf r.tok.rp.isSome Code.pinAuthInvalid
            return .credsMeta n.toNat (64 - (n.toNat : Int))
          else if q.sub == 2 then cmRpsBegin n
          else if q.sub == 3 then cmNextRp q
          else if q.sub == 4 then cmCredsBegin x q n
          else if q.sub == 5 then cmNextCred x q
          else if q.sub == 6 then cmDelete q n
          else if q.sub == 7 then cmUpdate q n
          else return .empty : M Resp) (fun a _ _ => KeyListed x f2 a) (fun _ _ _ => True) (fun _ _ => True) f2 r2 from
          wp_mono hs (fun _ _ _ h c e k hk => (h c e k hk).cert h2) (fun _ _ _ _ => trivial) (fun _ _ _ => trivial)
        apply wp_ite <;> intro _
        · refine gives_listed x ?_
          gives
        apply wp_ite <;> intro _
        · refine gives_listed x ?_
          unfold cmRpsBegin
          gives
        apply wp_ite <;> intro _
        · refine gives_listed x ?_
          unfold cmNextRp
          gives
        apply wp_ite <;> intro _
        · unfold cmCredsBegin
          apply wp_bind
          apply wp_get
          apply wp_bind
          apply wp_failIf
          · intro _; trivial
          intro _
          apply wp_bind
          apply wp_failIf
          · intro _; trivial
          intro _
          apply wp_bind
          apply wp_frame (R := Same) (by unfold metaCount; rels (skip))
          rintro k f' r' ⟨rfl, rfl⟩
          apply wp_bind
          apply wp_mod
          apply wp_bind
          apply wp_frame (R := Same) (by rels (skip))
          rintro ⟨m, j⟩ f' r' ⟨rfl, rfl⟩
          apply wp_bind
          apply wp_mod
          cases m with
          | none => exact wp_fail trivial
          | some m =>
            apply wp_bind
            apply wp_mod
            exact wp_cmCredKey x true
        apply wp_ite <;> intro _
        · unfold cmNextCred
          apply wp_bind
          apply wp_get
          split
          · exact wp_bind (wp_mod (wp_fail trivial))
          · apply wp_bind
            apply wp_mod
            exact wp_cmCredKey x false
        apply wp_ite <;> intro _
        · refine gives_listed x ?_
          unfold cmDelete
          gives
        apply wp_ite <;> intro _
        · refine gives_listed x ?_
          unfold cmUpdate
          gives
        · exact wp_pure (fun c h => by cases h)
      show wp _ _ _ _ _ f1 _
      wzeta
      apply wp_ite <;> intro _
      · apply wp_bind
        apply wp_frame (kept_cmAuth x i q)
        intro n f2 r2 h2
        exact fin n f2 r2 (h2.trans h1.cert)
      · apply wp_bind
        apply wp_pure
        exact fin 0 f1 r1 h1.cert
  obtain ⟨_, hl, _⟩ := resp_of x i (q := .cm q) (s := s) (Q := fun a _ _ => KeyListed x s.flash a) (key _) h
  exact hl c rfl k hk

/-- Not a response with a large-blob key. -/
def Resp.keyless : Resp → Prop
  | .mc _ => False
  | .ga _ => False
  | .cred _ => False
  | _ => True

theorem keyless_handle {q : Req} (h1 : q.cmd ≠ 0x01) (h2 : q.cmd ≠ 0x02) (h3 : q.cmd ≠ 0x08) (h4 : q.cmd ≠ 0x0A) (f : Flash) (r : Ram) :
    wp (fun _ => True) (handle x i q) (fun a _ _ => a.keyless) (fun _ _ _ => True) (fun _ _ => True) f r := by
  revert f r
  show Gives Resp.keyless (handle x i q)
  cases q with
  | mc q => exact absurd rfl h1
  | ga q => exact absurd rfl h2
  | gna => exact absurd rfl h3
  | info =>
    show Gives Resp.keyless (do let p ← hasPin; return .info p)
    gives
  | cp q =>
    show Gives Resp.keyless (clientPin x i q)
    unfold clientPin cpSetPin cpChangePin cpGetToken
    gives
  | reset =>
    show Gives Resp.keyless (resetData i)
    unfold resetData
    gives
  | cm q => exact absurd rfl h4
  | sel =>
    show Gives Resp.keyless (do wait i Code.actionTimeout; return .empty)
    gives
  | lb q =>
    show Gives Resp.keyless (largeBlobs x i q)
    unfold largeBlobs lbSet
    gives
  | other c => exact Gives.fail

end Verif.Ctap
