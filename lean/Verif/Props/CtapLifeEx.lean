import Verif.Props.CtapLife
import Verif.Props.CtapReset
/-
C86, C87: the hypotheses are met; a deleted credential still signs by U2F.
-/
namespace Verif.Ctap
open Toy

/-- One credential, then another of another relying party; a third whose registration is cut off, and a restart. -/
def lifeBefore : List (Op × Env) := hist [(20000, mc rpB user2 .yes 1 none)]
def lifeReq (rk : Opt) : McReq := mcReq rpA user1 rk 1 none
def lifeReg (rk : Opt) : Op := .cbor (envN 20001 5) (.mc (.ok (lifeReq rk)))
def lifeAfter : List (Op × Env) := [(.cbor (envN 20002 6) (mc rpA user2 .yes 1 none), cutAt 7), (.powerOn (env 0), fine),
  (.cbor (env 11000) (Toy.setPin pin1), fine), (.cbor (env 11001) (getToken pin1 6 none), fine)]
def lifeCid (rk : Opt) : Bytes := lastCid produced (lifeBefore ++ [(lifeReg rk, fine)])
def lifeSt (rk : Opt) : St := (run ext (step ext (run ext produced lifeBefore).1 (lifeReg rk) fine).1 lifeAfter).1

theorem lifeBefore_fair : Along ext Fair produced lifeBefore := ⟨⟨rfl, fun _ _ => nofun, by decide, by decide⟩, trivial⟩
theorem lifeReg_fair (rk : Opt) : Fair (run ext produced lifeBefore).1 (lifeReg rk, fine) :=
  ⟨rfl, fun _ _ => nofun, by show _ = _; decide, by show rpA.length = 32; decide⟩
theorem lifeAfter_fair (s : St) : Along ext Fair s lifeAfter := by
  refine ⟨⟨rfl, fun _ k => ?_, by decide, by decide⟩, ⟨rfl, fun _ _ => nofun, trivial⟩, ⟨rfl, fun _ _ => nofun, trivial⟩, ⟨rfl, fun _ _ => nofun, trivial⟩, trivial⟩
  show cutAt 7 k ≠ .fail
  unfold cutAt
  split <;> nofun

/-- The registration in an answer. -/
def enrolledAs : Out → Option McResp
  | .resp (.mc m) => some m
  | _ => none

theorem of_enrolled {o : Out} {p : McResp → Prop} [DecidablePred p] (h : (enrolledAs o).any (fun g => decide (p g)) = true) :
    ∃ g, o = .resp (.mc g) ∧ p g := by
  unfold enrolledAs at h
  split at h
  · exact ⟨_, rfl, by simpa using h⟩
  · cases h

theorem life_reg (rk : Opt) : ∃ m, (step ext (run ext produced lifeBefore).1 (lifeReg rk) fine).2 = .resp (.mc m) ∧ m.ad.att = some (lifeCid rk) := by
  apply of_enrolled (p := fun m => m.ad.att = some (lifeCid rk))
  cases rk <;> decide +kernel

theorem life_asks (rk : Opt) : Asks ext (lifeSt rk) (env 11005) (gaReq rpA [lifeCid rk] .absent none) (lifeCid rk) false where
  rp := by cases rk <;> decide +kernel
  allow := ⟨[], [], rfl, nofun⟩
  rk := rfl
  hs := nofun
  up := Or.inr (Or.inr rfl)
  plain _ := ⟨rfl, nofun⟩
  verified := nofun
  protect := by cases rk <;> decide +kernel
  alg := Or.inl (by cases rk <;> decide +kernel)

theorem life_draws : ∀ o ∈ lifeBefore ++ lifeAfter, ¬ o.1.draws (envN 20001 5).rndNonce := by
  intro o ho
  simp only [lifeBefore, hist, lifeAfter, List.map_cons, List.map_nil, List.cons_append, List.nil_append, List.mem_cons, List.not_mem_nil, or_false] at ho
  rcases ho with rfl | rfl | rfl | rfl | rfl
  · show ¬ _ = _; decide
  · show ¬ _ = _; decide
  all_goals exact id

theorem life_ends (c : Bytes) : ∀ o ∈ lifeAfter, ¬ o.1.ends c user1.id := by
  intro o ho
  simp only [lifeAfter, List.mem_cons, List.not_mem_nil, or_false] at ho
  rcases ho with rfl | rfl | rfl | rfl
  · rintro ⟨_, _, h⟩; exact absurd h (by decide)
  all_goals exact id

/-- C86 applies: a resident credential and one that is not, after all this, assert. -/
example (rk : Opt) : ∃ kh n, (step ext (lifeSt rk) (.cbor (env 11005) (.ga (.ok (gaReq rpA [lifeCid rk] .absent none)))) fine).2.asserts ext kh (lifeCid rk)
    (gaReq rpA [lifeCid rk] .absent none) false n := by
  obtain ⟨m, h, hc⟩ := life_reg rk
  obtain ⟨kh, n, _, _, h⟩ := C86_works toy_hmac produced produced_unused (by decide +kernel) lifeBefore lifeBefore_fair (envN 20001 5) (lifeReq rk) fine
    (lifeReg_fair rk) m (lifeCid rk) h hc lifeAfter (lifeAfter_fair _) (fun _ => ⟨life_draws, life_ends _⟩) (lifeSt rk) rfl (env 11005) _ false (life_asks rk) fine
    (fun _ => rfl)
  exact ⟨kh, _, h⟩

/-- The request that deletes it. -/
def lifeDel : CmReq := { sub := 6, params := [], rpHash := [], cid := lifeCid .yes, user := user1, proto := 1, pinAuth := auth [6] }
def lifeGone : St := (step ext (lifeSt .yes) (.cbor (env 11006) (.cm (.ok lifeDel))) fine).1
def lifeRest : List (Op × Env) := [(.cbor (env 11007) (ga rpA [] .absent none), fine), (.cbor (env 11008) (ga rpA [lifeCid .yes] .absent none), fine),
  (.cbor (env 11009) (ga rpB [] .absent none), fine)]

/-- C87 applies: it is deleted. The relying party has none then, the other one still asserts. -/
theorem life_deleted : (step ext (lifeSt .yes) (.cbor (env 11006) (.cm (.ok lifeDel))) fine).2 = .resp .empty := by decide +kernel
example : (run ext lifeGone lifeRest).2.map (fun o => match o with | .resp (.ga g) => g.ad.rp.headD 0 | .err c => c | _ => 99) =
      [Code.noCredentials, Code.noCredentials, 0x0B] := by decide +kernel
theorem life_rest_fair (s : St) : Along ext Fair s lifeRest :=
  ⟨⟨rfl, fun _ _ => nofun, trivial⟩, ⟨rfl, fun _ _ => nofun, trivial⟩, ⟨rfl, fun _ _ => nofun, trivial⟩, trivial⟩
theorem life_rest_draws : ∀ o ∈ lifeBefore ++ lifeAfter ++ lifeRest, ¬ o.1.draws (envN 20001 5).rndNonce := by
  intro o ho
  rcases List.mem_append.mp ho with ho | ho
  · exact life_draws o ho
  · simp only [lifeRest, List.mem_cons, List.not_mem_nil, or_false] at ho
    rcases ho with rfl | rfl | rfl <;> exact id
theorem life_rest_ub : ∀ u, .ub u ∉ (run ext (step ext (lifeSt .yes) (.cbor (env 11006) (.cm (.ok lifeDel))) fine).1 lifeRest).2 := by
  have : ((run ext (step ext (lifeSt .yes) (.cbor (env 11006) (.cm (.ok lifeDel))) fine).1 lifeRest).2.all
    fun o => match o with | .ub _ => false | _ => true) = true := by decide +kernel
  intro u hm
  exact absurd (List.all_eq_true.mp this _ hm) (by simp)
theorem life_gone (rk : Opt) (hrk : rk = .yes) (qd : CmReq) (h6 : qd.sub = 6) (hq : qd.cid = lifeCid rk)
    (hd : (step ext (lifeSt rk) (.cbor (env 11006) (.cm (.ok qd))) fine).2 = .resp .empty)
    (hu : ∀ u, .ub u ∉ (run ext (step ext (lifeSt rk) (.cbor (env 11006) (.cm (.ok qd))) fine).1 lifeRest).2) :
    ∀ g ∈ assertions (run ext (step ext (lifeSt rk) (.cbor (env 11006) (.cm (.ok qd))) fine).1 lifeRest).2, g.cid ≠ lifeCid rk := by
  obtain ⟨m, h, hc⟩ := life_reg rk
  exact (C87_deleted_partial toy_hmac produced produced_unused lifeBefore lifeBefore_fair (envN 20001 5) (lifeReq rk) hrk fine
    (lifeReg_fair rk) m (lifeCid rk) h hc lifeAfter (lifeAfter_fair _) (lifeSt rk) rfl (env 11006) qd h6 hq fine .empty hd
    lifeRest (life_rest_fair _) life_rest_draws hu).2
example : ∀ g ∈ assertions (run ext (step ext (lifeSt .yes) (.cbor (env 11006) (.cm (.ok lifeDel))) fine).1 lifeRest).2, g.cid ≠ lifeCid .yes :=
  life_gone .yes rfl lifeDel (by simp only [lifeDel]) (by simp only [lifeDel]) life_deleted life_rest_ub

/-- But U2F still signs with the deleted credential, on a touch. -/
theorem C87_refuted : (step ext (lifeSt .yes) (.cbor (env 11006) (.cm (.ok lifeDel))) fine).2 = .resp .empty ∧
    Absent lifeGone.flash (lifeCid .yes) ∧
    ∃ n, (step ext lifeGone (.u2f (env 11007) (.authenticate cdh rpA (lifeCid .yes) false)) fine).2 =
      .u2f (.signed n (khPri ext (List.replicate 32 0xCC) (Cid.nonce (lifeCid .yes))) rpA cdh) := by
  refine ⟨life_deleted, ?_, 4, by decide +kernel⟩
  rintro d ⟨recs, p, h1, h2, h3⟩
  have : (rdRecs lifeGone.flash).any (fun l => l.all fun d => d.deleted || Cid.nonce d.cid != Cid.nonce (lifeCid .yes)) = true := by decide +kernel
  rw [h1] at this
  have := List.all_eq_true.mp this d (List.mem_of_getElem? h2)
  rw [h3] at this
  simpa using this

end Verif.Ctap
