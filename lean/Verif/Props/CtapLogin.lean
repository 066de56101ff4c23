import Verif.Lemmas.CtapLogin
import Verif.Lemmas.CtapOwn
import Verif.Props.CtapReg
/-
Assertions are answered as a host expects: property C109.
-/
namespace Verif.Props
open Verif.Ctap Verif.Spec.Login
open Verif.Spec.Reg (Facts touch)

/-- C109. A getAssertion request, with storage that works: it is refused exactly for the reasons of the table, with the
status of the table, and then nothing in the storage has changed. Otherwise the answer is that of the credential of the
specification, and only the signature counter has changed, by one. (A credential that is named in the list as
discoverable is still there: for others see C71.) -/
theorem C109_assertion (x : Ext) (s : St) (i : In) (q : GaReq) (d : Facts) (hs : Sees x s i q d)
    (hx : ∀ e ∈ q.allow, e.length = 70) (hh : q.hs = none)
    (hg : ∀ e ∈ q.allow, Suits x d q e → Cid.dc e ≠ 0 → stored d q e ≠ none)
    (env : Env) (he : ∀ n, env n = .ok) (o : St × Out) (ho : o = step x s (.cbor i (.ga (.ok q))) env) :
    match refusal x d i q with
    | some c => o.2 = .err c ∧ o.1.flash = s.flash
    | none => ∃ c, chosen x d q = some c ∧ o.2 = .resp (.ga (answer x d q c)) ∧
        o.1.flash = { s.flash with cert := s.flash.cert.map fun e => { e with ctr := some (d.ctr + 1) } } := by
  subst ho
  refine cbor_wp (P := fun o : St × Out => match refusal x d i q with
    | some c => o.2 = .err c ∧ o.1.flash = s.flash
    | none => ∃ c, chosen x d q = some c ∧ o.2 = .resp (.ga (answer x d q c)) ∧
        o.1.flash = { s.flash with cert := s.flash.cert.map fun e => { e with ctr := some (d.ctr + 1) } }) (A := allOk) he
    (ok_getAssertion hx hh hg hs) ?_ ?_ ?_ ?_
  · rintro a f r ⟨hR, c, h1, rfl, rfl⟩
    dsimp only
    rw [hR]
    exact ⟨c, h1, rfl, rfl⟩
  · rintro c f r ⟨c', e, hR, rfl⟩
    cases e
    dsimp only
    rw [hR]
    exact ⟨rfl, rfl⟩
  · rintro u f r ⟨c', e, _⟩
    cases e
  · rintro f r h
    exact h.elim

/-- C109. The theorem is about the states that histories lead to: after any history of an authenticator without a reset,
with power cuts and storage errors, if no update is pending, the PIN can be read and the algorithms of the credentials
are still there. All stored credentials are the device's own. -/
theorem C109_reached (x : Ext) (hm : ∀ k m, (x.hmac k m).length = 32) (s : St) (hs : Unused s.flash)
    (hk : (rdCert (·.kh) s.flash).isSome = true) (hh : (rdCert (·.he) s.flash).isSome = true) (hc : s.flash.counter.isSome = true)
    (ops : List (Op × Env)) (hf : Along x Fair s ops) (t : St) (ht : t = (run x s ops).1) (i : In) (q : GaReq)
    (hq : ∃ a, rdAttr t.flash = some a ∧ a.add = false ∧ a.del = false)
    (hpin : (rdCert (·.pin) t.flash).isSome = true)
    (ha : ∀ e, Cid.alg e = ES256 ∨ Cid.alg e = EDDSA ∨ (t.ram.sm2.enabled = true ∧ Cid.alg e = t.ram.sm2.algo) ∨
      (e ∉ q.allow ∧ ∀ c ∈ (factsOf t i).recs, c.deleted = false → c.cid ≠ e)) :
    Sees x t i q (factsOf t i) := by
  subst ht
  obtain ⟨⟨recs, ms, a, g⟩, _⟩ := good_run (K := False) hm ops s hs.lb hf False.elim hs.good
  obtain ⟨b1, b2, b3, _⟩ := secrets_run ops s hs.lb hf
  have some_get : ∀ {α : Type} {o : Option α} {z : α}, o.isSome = true → o = some (o.getD z) := by
    intro α o z h
    cases o with
    | none => cases h
    | some a => rfl
  obtain ⟨kh, hkh⟩ := Option.isSome_iff_exists.mp hk
  have own := own_run hm ops s hs.lb hf (kh := kh) ⟨hkh, hs.slots⟩
  have hrecs : (factsOf (run x s ops).1 i).recs = recs := by
    unfold factsOf
    rw [g.recs]
    rfl
  refine ⟨?_, rfl, rfl, ?_, ?_, ?_, ?_, hq, ?_, ?_⟩
  · obtain ⟨p, hp⟩ := Option.isSome_iff_exists.mp hpin
    refine ⟨p, hp, ?_⟩
    unfold factsOf
    rw [hp]
    simp
  · exact some_get (b1 ▸ hk)
  · exact some_get (b2 ▸ hh)
  · exact some_get (b3 hc)
  · rw [hrecs]
    exact g.recs
  · intro c hc hd
    rw [hrecs] at hc
    obtain ⟨p, hp⟩ := List.mem_iff_getElem?.mp hc
    have := own.2 recs p c g.recs ⟨hp, hd⟩
    unfold factsOf
    rw [own.1]
    exact this
  · intro e he _ _
    rcases ha e with h | h | h | ⟨h1, h2⟩
    · exact Or.inl h
    · exact Or.inr (Or.inl h)
    · exact Or.inr (Or.inr h)
    · rcases he with he | ⟨c, hc, hd, e1⟩
      · exact absurd he h1
      · exact absurd e1 (h2 c hc hd)

/-- C109. A request without user presence never waits for the user: its answer does not depend on the touch. -/
theorem C109_silent (x : Ext) (d : Facts) (i i' : In) (q : GaReq) (hup : q.up = .no) (hne : q.pinAuth ≠ some []) :
    refusal x d i q = refusal x d i' q := by
  unfold refusal
  simp only [hup, hne, if_false, ne_eq, not_true_eq_false, false_and]

/-- C109. Without verification and without their ids, protected credentials cannot be noticed: two devices that differ
only in credentials of other relying parties, in credentials of protection 2 and 3 and in free places give the same
answer. -/
theorem C109_hidden (x : Ext) (s s' : St) (i : In) (q : GaReq) (d d' : Facts) (hs : Sees x s i q d) (hs' : Sees x s' i q d')
    (hq : q.allow = []) (ha : q.pinAuth = none) (hh : q.hs = none)
    (hd : { d with recs := [] } = { d' with recs := [] })
    (hr : (d.recs.filter fun c => !c.deleted && Cid.rp c.cid == q.rpHash && !(Cid.cp c.cid == 2 || Cid.cp c.cid == 3)) =
      d'.recs.filter fun c => !c.deleted && Cid.rp c.cid == q.rpHash && !(Cid.cp c.cid == 2 || Cid.cp c.cid == 3))
    (env : Env) (he : ∀ n, env n = .ok) :
    (step x s (.cbor i (.ga (.ok q))) env).2 = (step x s' (.cbor i (.ga (.ok q))) env).2 := by
  have h1 := C109_assertion x s i q d hs (by rw [hq]; exact nofun) hh (by rw [hq]; exact nofun) env he _ rfl
  have h2 := C109_assertion x s' i q d' hs' (by rw [hq]; exact nofun) hh (by rw [hq]; exact nofun) env he _ rfl
  obtain ⟨pin, left, tok, kh, hek, ctr, recs⟩ := d
  obtain ⟨pin', left', tok', kh', hek', ctr', recs'⟩ := d'
  cases hd
  have huv : ∀ l, uv ⟨pin, left, tok, kh, hek, ctr, l⟩ q = false := by
    intro l
    unfold uv
    rw [ha]
    simp
  have hel : eligible ⟨pin, left, tok, kh, hek, ctr, recs⟩ q = eligible ⟨pin, left, tok, kh, hek, ctr, recs'⟩ q := by
    unfold eligible
    rw [huv, huv]
    exact congrArg List.reverse hr
  have hch : chosen x ⟨pin, left, tok, kh, hek, ctr, recs⟩ q = chosen x ⟨pin, left, tok, kh, hek, ctr, recs'⟩ q := by
    unfold chosen
    rw [if_pos hq, if_pos hq, hel]
  have href : refusal x ⟨pin, left, tok, kh, hek, ctr, recs⟩ i q = refusal x ⟨pin, left, tok, kh, hek, ctr, recs'⟩ i q := by
    unfold refusal
    rw [hch]
    rfl
  rw [href] at h1
  generalize refusal x ⟨pin, left, tok, kh, hek, ctr, recs'⟩ i q = R at h1 h2
  cases R with
  | some c => exact h1.1.trans h2.1.symm
  | none =>
    obtain ⟨c, e1, e2, _⟩ := h1
    obtain ⟨c', e1', e2', _⟩ := h2
    rw [hch, e1'] at e1
    cases e1
    rw [e2, e2']
    refine congrArg (fun a => Out.resp (Resp.ga a)) ?_
    unfold answer
    rw [hel]
    rfl

/-! ### The hypotheses can be met -/

open Verif.Ctap.Toy in
/-- Three credentials: one of relying party A, one of it with protection 3, and one of B. -/
def three : List (Op × Env) := histN [(20000, 1, mc rpA user1 .yes 1 none), (20001, 2, mc rpA user2 .yes 3 none), (20002, 3, mc rpB user1 .yes 1 none)]

open Verif.Ctap.Toy in
theorem three_sees (a : Option Bytes) : Sees ext (run ext produced three).1 (env 20003) (gaReq rpA [] .absent a) (factsOf (run ext produced three).1 (env 20003)) := by
  refine C109_reached ext toy_hmac produced produced_unused (by decide +kernel) (by decide +kernel) (by decide +kernel) three ?_ _ rfl _ _ ?_
    (by decide +kernel) ?_
  · refine ⟨⟨rfl, fun _ n => (nofun : Fault.ok ≠ .fail), ⟨by decide +kernel, by decide +kernel⟩⟩, ⟨rfl, fun _ n => (nofun : Fault.ok ≠ .fail), ⟨by decide +kernel, by decide +kernel⟩⟩,
      ⟨rfl, fun _ n => (nofun : Fault.ok ≠ .fail), ⟨by decide +kernel, by decide +kernel⟩⟩, trivial⟩
  · have h : (rdAttr (run ext produced three).1.flash).all (fun a => !a.add && !a.del) = true ∧ (rdAttr (run ext produced three).1.flash).isSome = true := by
      decide +kernel
    obtain ⟨b, hb⟩ := Option.isSome_iff_exists.mp h.2
    rw [hb] at h
    refine ⟨b, hb, ?_⟩
    simpa using h.1
  · intro e
    have h : ((factsOf (run ext produced three).1 (env 20003)).recs.all fun c => Cid.alg c.cid == ES256) = true := by decide +kernel
    by_cases he : Cid.alg e = ES256
    · exact Or.inl he
    · refine Or.inr (Or.inr (Or.inr ⟨by rintro ⟨⟩, fun c hc _ e1 => he ?_⟩))
      rw [← e1]
      exact eq_of_beq (List.all_eq_true.mp h c hc)

open Verif.Ctap.Toy in
/-- One credential can be used without verification: the answer has its user, and no number. -/
example : (match resps produced (three ++ hist [(20003, ga rpA [] .absent none)]) with
    | [_, _, _, some (.ga g)] => some (g.userId, g.count, g.ad.flags, g.ad.ctr)
    | _ => none) = some (some [1], none, 0x01, 4) := by
  decide +kernel

open Verif.Ctap.Toy in
/-- The credential with protection 3 makes no difference (`C109_hidden`). -/
example : ((run ext produced (three ++ hist [(20003, ga rpB [] .absent none)])).2.getLast?.map fun o => match o with
      | .resp (.ga g) => g.userId
      | _ => none) = some (some [1]) ∧
    (run ext produced (histN [(20001, 2, mc rpA user2 .yes 3 none), (20003, 0, ga rpA [] .absent none)])).2.getLast? = some (.err 0x2E) := by
  decide +kernel

open Verif.Ctap.Toy in
/-- Without user presence nobody is waited for; with it, a touch is needed. -/
example : let away : In := { env 20003 with presence := .timeout }
    ((run ext produced (three ++ [(.cbor away (ga rpA [] .no none), fine)])).2.getLast?.map fun o => match o with
      | .resp (.ga g) => some g.ad.flags
      | _ => none) = some (some 0) ∧
    (run ext produced (three ++ [(.cbor away (ga rpA [] .absent none), fine)])).2.getLast? = some (.err 0x27) := by
  decide +kernel

end Verif.Props
