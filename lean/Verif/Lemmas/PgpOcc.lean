import Verif.Base.Keeps
import Verif.Spec.PgpCert
import Verif.Lemmas.PgpWhole
/-
Commands of the OpenPGP applet that leave the state machine of the certificates alone.
-/
set_option linter.unusedSimpArgs false
namespace Verif.Pgp
open Cmd Verif.Spec.Pgp Verif.Spec.PgpData Verif.Spec.PgpCert Verif.KeyFile

variable {A : Fault → Prop} {x : Ext} {i : In} {f f' : Flash} {r r' : Ram} {o : Outcome Reply}

/-- The state machine is not moved. -/
def OccKeep (r r' : Ram) : Prop := r'.occ = r.occ ∧ r'.state = r.state
instance : PreOrd OccKeep := ⟨fun _ => ⟨rfl, rfl⟩, fun h h' => ⟨h'.1.trans h.1, h'.2.trans h.2⟩⟩

theorem onPin_occ {α : Type} {w : Which} {m : Pin.M α} : Keeps OccKeep (onPin w m) := by
  unfold onPin
  exact Keeps.zoom fun r p => by cases w <;> exact ⟨rfl, rfl⟩

/-- Closes what is left of a walk. -/
macro "oc" : tactic => `(tactic| first
  | with_reducible exact onPin_occ
  | exact fun _ => ⟨rfl, rfl⟩
  | (intro _; exact ⟨rfl, rfl⟩)
  | (intro _; split <;> exact ⟨rfl, rfl⟩))

theorem getRetries_occ {w : Which} : Keeps OccKeep (onPin w Pin.getRetries) := onPin_occ
theorem verifyFirst_occ {w : Which} {n : Option Nat} : Keeps OccKeep (verifyFirst x i w n) := by
  unfold verifyFirst; kps oc
theorem updateRest_occ {w : Which} {n : Option Nat} : Keeps OccKeep (updateRest x i w n) := by
  unfold updateRest; kps oc
theorem changeRef_occ : Keeps OccKeep (changeRef x i) := by
  unfold changeRef; kps (first | with_reducible exact verifyFirst_occ | with_reducible exact updateRest_occ | oc)
theorem resetRetry_occ : Keeps OccKeep (resetRetry x i) := by
  unfold resetRetry needAdmin; kps (first | with_reducible exact verifyFirst_occ | with_reducible exact updateRest_occ | oc)
theorem verifyWhich_occ {b : Byte} {w : Which} {g : Ram → Ram} (h : verifyWhich b = some (w, g)) (r : Ram) : OccKeep r (g r) := by
  unfold verifyWhich at h
  repeat' split at h
  all_goals first | (cases h; done) | (simp only [Option.some.injEq, Prod.mk.injEq] at h; obtain ⟨_, rfl⟩ := h; exact ⟨rfl, rfl⟩)
theorem verify_occ : Keeps OccKeep (verify x i) := by
  unfold verify
  kps (first
    | with_reducible exact onPin_occ
    | (intro _; first | exact ⟨rfl, rfl⟩ | exact verifyWhich_occ (by assumption) _ | (rename Which => w; cases w <;> exact ⟨rfl, rfl⟩) | (split <;> exact ⟨rfl, rfl⟩)))
theorem getChallenge_occ : Keeps OccKeep (getChallenge i) := by
  unfold getChallenge; kps oc
theorem terminate_occ : Keeps OccKeep (terminate i.c) := by
  unfold terminate needAdmin setData; kps oc
theorem select_occ : Keeps OccKeep (select i.c) := by
  unfold select getAttr; kps oc
theorem touch_occ : Keeps OccKeep (touch i) := by
  unfold touch; kps oc
theorem readKey_occ {k : K} : Keeps OccKeep (readKey k) := by
  unfold readKey readMeta; kps oc
theorem writeKey_occ {k : K} {mat : Key.KeyMat} {m : Meta} : Keeps OccKeep (writeKey k mat m) := by
  unfold writeKey setKey; kps oc
theorem generate_occ : Keeps OccKeep (generate x i) := by
  unfold generate resetCtr setData
  kps (first | with_reducible exact readKey_occ | with_reducible exact writeKey_occ | oc)
theorem importKey_occ : Keeps OccKeep (importKey x i) := by
  unfold importKey needAdmin readMeta resetCtr setData
  kps (first | with_reducible exact readKey_occ | with_reducible exact writeKey_occ | oc)
set_option maxHeartbeats 2000000 in
theorem signOrAuth_occ {b : Bool} : Keeps OccKeep (signOrAuth x i b) := by
  unfold signOrAuth readMeta setData getAttr
  kps (first | with_reducible exact readKey_occ | with_reducible exact writeKey_occ | with_reducible exact touch_occ | oc)
theorem decipher_occ : Keeps OccKeep (decipher x i) := by
  unfold decipher readMeta
  kps (first | with_reducible exact readKey_occ | with_reducible exact touch_occ | oc)
theorem retries_occ {w : Which} : Keeps OccKeep (retries w) := by
  unfold retries; kps oc
theorem pwStatus_occ : Keeps OccKeep pwStatus := by
  unfold pwStatus getAttr; kps (first | with_reducible exact retries_occ | oc)
theorem fillAttr_occ {m : Meta} : Keeps OccKeep (fillAttr m) := by
  unfold fillAttr; kps oc
theorem discretionary_occ {a b c : Meta} : Keeps OccKeep (discretionary a b c) := by
  unfold discretionary getAttr
  kps (first | with_reducible exact fillAttr_occ | with_reducible exact pwStatus_occ | oc)
theorem getData_occ : Keeps OccKeep (getData i) := by
  unfold getData getAttr readMeta appData readCert
  kps (first | with_reducible exact discretionary_occ | with_reducible exact pwStatus_occ | oc)
theorem putAttr_occ {c : Apdu.Capdu} {k : K} : Keeps OccKeep (putAttr c k) := by
  unfold putAttr readMeta setKey; kps oc
theorem putUif_occ {k : K} : Keeps OccKeep (putUif i k) := by
  unfold putUif readMeta setKey; kps oc
theorem putRc_occ {c : Apdu.Capdu} : Keeps OccKeep (putRc x c) := by
  unfold putRc; kps oc
theorem putCache_occ {c : Apdu.Capdu} : Keeps OccKeep (putCache c) := by
  unfold putCache setData; kps oc
theorem putPwStatus_occ {c : Apdu.Capdu} : Keeps OccKeep (putPwStatus c) := by
  unfold putPwStatus setData; kps oc
theorem putAttrOf_occ {c : Apdu.Capdu} {lo hi : Nat} {w : M Unit} (h : Keeps OccKeep w) : Keeps OccKeep (putAttrOf c lo hi w) := by
  unfold putAttrOf; kps exact h

theorem putData_occ (ht : tagOf i.c ≠ 0x7F21) : Keeps OccKeep (putData x i) := by
  unfold putData needAdmin
  simp only [ht, if_false]
  kps (first
    | with_reducible exact putAttr_occ | with_reducible exact putUif_occ | with_reducible exact putRc_occ
    | with_reducible exact putCache_occ | with_reducible exact putPwStatus_occ
    | ((with_reducible apply putAttrOf_occ); unfold setData; exact .wrOr _ _)
    | ((with_reducible apply putAttrOf_occ); unfold setKey; exact .wrOr _ _)
    | ((with_reducible apply putAttrOf_occ); exact .wrOr _ _)
    | oc)

/-- What the other commands do. -/
theorem dispatch_occ {t : Byte} (h1 : i.c.ins ≠ 0xA5) (h2 : i.c.ins ≠ 0xCC) (h3 : i.c.ins ≠ 0x44)
    (h4 : i.c.ins = 0xDA → tagOf i.c ≠ 0x7F21) : Keeps OccKeep (dispatch x i t) := by
  unfold dispatch
  simp only [h1, h2, h3, beq_iff_eq, if_false]
  kps (first
    | with_reducible exact select_occ | with_reducible exact getData_occ | with_reducible exact verify_occ
    | with_reducible exact changeRef_occ | with_reducible exact resetRetry_occ | with_reducible exact importKey_occ
    | with_reducible exact generate_occ | with_reducible exact signOrAuth_occ | with_reducible exact decipher_occ
    | with_reducible exact getChallenge_occ | with_reducible exact terminate_occ
    | (refine putData_occ (h4 ?_); assumption))

end Verif.Pgp
