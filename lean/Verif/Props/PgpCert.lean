import Verif.Lemmas.PgpMeant
import Verif.Props.PgpData
/-
Properties of the certificates of the OpenPGP applet (C97).
-/
set_option linter.unusedSimpArgs false
namespace Verif.Pgp
open Cmd Verif.Spec.Pgp Verif.Spec.PgpData Verif.Spec.PgpCert Verif.KeyFile

variable {A : Fault → Prop} {x : Ext} {i : In} {f f' : Flash} {r r' : Ram} {log : List Entry} {s : St}

/-- What the log says of the certificates is so. -/
def HoldInv (log : List Entry) (s : St) : Prop :=
  CertInv log s ∧ (Tidy log → ∀ k v, Holds k v log → s.flash.certs k = some v ∧ v.length ≤ 0x480)

theorem ok_none : ¬ Ok .none := fun ⟨_, h⟩ => by cases h

theorem setCert_certs {k k' : K} {c : Bytes} : (f.setCert k c).certs k' = if k' = k then some c else f.certs k' := rfl

/-- PUT DATA of a certificate changes the certificate that is meant, if it is answered 9000, and no other. -/
theorem step_putCert {env : Env} (hA : ∀ r, s.ram = some r → Agrees log s.flash r) (hi : i.c.ins = 0xDA) (ht : tagOf i.c = 0x7F21) :
    (Ok (step x s (.apdu i) env).2 →
      (step x s (.apdu i) env).1.flash = s.flash.setCert (meant log) i.c.data ∧ i.c.data.length ≤ 0x480) ∧
    (¬ Ok (step x s (.apdu i) env).2 → (step x s (.apdu i) env).1.flash = s.flash) := by
  cases hr : s.ram with
  | none =>
    obtain ⟨f, ram⟩ := s
    dsimp only at hr
    subst hr
    exact ⟨fun h => absurd h ok_none, fun _ => rfl⟩
  | some r =>
    obtain ⟨o, f', r1, h, e⟩ := step_trk (x := x) (i := i) (env := env) hr
    rw [e]
    have hA := hA r hr
    cases h with
    | same h sw hs => exact ⟨fun ⟨d, h⟩ => (by injection h with h; exact absurd h (sw_bad hs d)), fun _ => rfl⟩
    | gate hc _ ht sw hs hg => exact ⟨fun ⟨d, h⟩ => (by injection h with h; exact absurd h (sw_bad hs d)), fun _ => rfl⟩
    | cut f' r' h => exact ⟨fun h => absurd h cut_not_ok, fun _ => h hi ht⟩
    | sel hc h => rw [hi] at h; exact absurd h (by decide)
    | next hc h => rw [hi] at h; exact absurd h (by decide)
    | other hc h1 h2 h4 => exact absurd ht (h4 hi)
    | put hc hi hg r0 ht a f' r' hs ho =>
      rcases ho with ⟨hb, _, rfl⟩ | ⟨k, hk, _, rfl, hl, rfl⟩
      · exact ⟨fun ⟨d, h⟩ => (by injection h with h; exact absurd h (hb d)), fun _ => rfl⟩
      · have := hA.put_occ hi hg ht
        rw [hk] at this
        injection this with this
        subst this
        exact ⟨fun _ => ⟨rfl, hl⟩, fun h => absurd ⟨[], rfl⟩ h⟩

theorem installs_factory (hx : x.Ok) {op : Op} {env : Env} (hi : Reinstalls s.flash op) (hok : Ok (step x s op env).2) :
    (step x s op env).1.flash = factory := by
  rcases hi with ⟨⟨i, rfl, hi⟩, _⟩ | rfl | ⟨rfl, hd⟩
  · exact (C40_activate_installs hx s i env hi).1 hok
  · have he := step_eff (A := anyFault) hx (s := s) (op := .factory) (env := env) anyAll
    generalize (step x s .factory env).1 = s', (step x s .factory env).2 = out at *
    cases he with
    | off => exact absurd hok ok_none
    | factory r hr o f' r' h =>
      cases h with
      | done => rfl
      | fail => exact absurd hok (not_ok_of_bad bad_io)
      | cut => exact absurd hok cut_not_ok
  · have he := step_eff (A := anyFault) hx (s := s) (op := .boot) (env := env) anyAll
    generalize (step x s .boot env).1 = s', (step x s .boot env).2 = out at *
    cases he with
    | off => exact absurd hok ok_none
    | boot o f' r' h =>
      cases h with
      | nop h => exact absurd hd h
      | cut => exact absurd hok cut_not_ok
      | inst _ _ _ _ h =>
        cases h with
        | done => rfl
        | fail => exact absurd hok (not_ok_of_bad bad_io)
        | cut => exact absurd hok cut_not_ok

theorem step_holds (hx : x.Ok) {op : Op} {env : Env} (hb : BootsOk op env) (hi : HoldInv log s) :
    HoldInv ((s, op, (step x s op env).2) :: log) (step x s op env).1 := by
  refine ⟨step_agrees hx hi.1, fun ht k v hv => ?_⟩
  have hA := hi.1 ht.1
  rcases hv with ⟨⟨i, rfl, h1, h2, rfl⟩, hok, rfl⟩ | ⟨hre, hok, rfl⟩ | ⟨hn, hre, hv⟩
  · obtain ⟨h, hl⟩ := (step_putCert (x := x) (env := env) hA h1 h2).1 hok
    rw [h, setCert_certs, if_pos rfl]
    exact ⟨rfl, hl⟩
  · rw [installs_factory hx hre hok]
    exact ⟨by cases k <;> rfl, by simp⟩
  · have hold := hi.2 ht.1 k v hv
    refine ⟨Eq.trans ?_ hold.1, hold.2⟩
    by_cases hp : IsIns op 0xDA
    · obtain ⟨i, rfl, h1⟩ := hp
      by_cases h2 : tagOf i.c = 0x7F21
      · have := step_putCert (x := x) (env := env) hA h1 h2
        by_cases hok : Ok (step x s (.apdu i) env).2
        · rw [(this.1 hok).1, setCert_certs, if_neg (fun e => hn ⟨⟨_, i, rfl, h1, h2, rfl⟩, hok, e.symm⟩)]
        · rw [this.2 hok]
      · by_cases e : (step x s (.apdu i) env).1.flash.certs k = s.flash.certs k
        · exact e
        · exact absurd ((step_put (x := x) (s := s) (env := env) h1).certs k e) h2
    · rw [(step_still hx hb hp hre).certs]

theorem run_holds (hx : x.Ok) (s : St) (hs : s.ram = none) (h : List (Op × Env)) (hb : ∀ e ∈ h, BootsOk e.1 e.2) :
    HoldInv (run x s [] h).2 (run x s [] h).1 :=
  run_inv (x := x) (I := HoldInv) (P := BootsOk) (fun _ _ _ _ hb hi => step_holds hx hb hi) h s [] hb
    ⟨fun _ r hr => (by rw [hs] at hr; cases hr), fun _ _ _ h => h.elim⟩

theorem take_cert {d v : Bytes} (h : some d = some v) (hl : v.length ≤ 0x480) : d.take 0x480 = v := by
  injection h with h; subst h; exact List.take_of_length_le hl

/-- C97, the part that holds: the certificate that is meant is the one that is read. `s` is a device that is off, `h` any
history of it, with storage errors and power cuts, that is tidy (see `Tidy`: the full claim has no such condition, and fails
without it, `C97_refuted`). If the certificate that is meant was written last with `v`, or is `v` = empty since the
installation, then GET DATA of 7F21, if answered 9000, shows `v`: writing other certificates, refused and interrupted
writes, other commands and restarts do not change it. -/
theorem C97_read_back_partial (hx : x.Ok) (s : St) (hs : s.ram = none) (h : List (Op × Env)) (hb : ∀ e ∈ h, BootsOk e.1 e.2)
    (ht : Tidy (run x s [] h).2) (v : Bytes) (hv : Holds (meant (run x s [] h).2) v (run x s [] h).2) (g : In) (env : Env)
    (hg : Gets 0x7F21 g) (d : Bytes) (hr : (step x (run x s [] h).1 (.apdu g) env).2 = .reply (.resp d 0x9000)) : d = v := by
  obtain ⟨h1, h2⟩ := run_holds hx s hs h hb
  obtain ⟨hc, hl⟩ := h2 ht _ _ hv
  have hA := h1 ht
  generalize (run x s [] h).1 = s', (run x s [] h).2 = log at *
  cases hram : s'.ram with
  | none =>
    obtain ⟨f, ram⟩ := s'
    dsimp only at hram
    subst hram
    cases hr
  | some r =>
    obtain ⟨o, f', r1, h, e⟩ := step_trk (x := x) (i := g) (env := env) hram
    rw [e] at hr
    have hA := hA r hram
    cases h with
    | same h sw hs => injection hr with hr; exact absurd hr (sw_bad hs d)
    | gate hc _ ht sw hs hg => injection hr with hr; exact absurd hr (sw_bad hs d)
    | cut => cases hr
    | sel _ h => rw [hg.1] at h; exact absurd h (by decide)
    | next _ h => rw [hg.1] at h; exact absurd h (by decide)
    | put _ h => rw [hg.1] at h; exact absurd h (by decide)
    | other _ h1 h2 h4 r0 ht a f' r' ho hs hg' =>
      obtain ⟨_, _, _, h | ⟨k, d', hk, hd, rfl⟩⟩ := hg' hg.1 hg.2
      · injection hr with hr; exact absurd hr (h d)
      · have := hA.get_occ hg.1 hg.2 ht
        rw [hk] at this
        injection this with this
        subst this
        injection hr with hr
        injection hr with hr
        rw [← hr]
        exact take_cert (hd.symm.trans hc) hl

/-- C97, the part that holds: GET NEXT DATA, if answered 9000, shows the certificate after the one that was read last. -/
theorem C97_next_partial (hx : x.Ok) (s : St) (hs : s.ram = none) (h : List (Op × Env)) (hb : ∀ e ∈ h, BootsOk e.1 e.2)
    (ht : Tidy (run x s [] h).2) (n : Nat) (hn : cursor (run x s [] h).2 = some n) (g : In) (env : Env) (hg : g.c.ins = 0xCC)
    (d : Bytes) (hr : (step x (run x s [] h).1 (.apdu g) env).2 = .reply (.resp d 0x9000)) :
    ∃ k, nth k = n + 1 ∧ ∀ v, Holds k v (run x s [] h).2 → d = v := by
  obtain ⟨h1, h2⟩ := run_holds hx s hs h hb
  have h2 := h2 ht
  have hA := h1 ht
  generalize (run x s [] h).1 = s', (run x s [] h).2 = log at *
  cases hram : s'.ram with
  | none =>
    obtain ⟨f, ram⟩ := s'
    dsimp only at hram
    subst hram
    cases hr
  | some r =>
    obtain ⟨o, f', r1, h, e⟩ := step_trk (x := x) (i := g) (env := env) hram
    rw [e] at hr
    have hA := hA r hram
    cases h with
    | same h sw hs => injection hr with hr; exact absurd hr (sw_bad hs d)
    | gate hc _ ht sw hs hg => injection hr with hr; exact absurd hr (sw_bad hs d)
    | cut => cases hr
    | sel _ h => rw [hg] at h; exact absurd h (by decide)
    | put _ h => rw [hg] at h; exact absurd h (by decide)
    | other _ h1 h2 => exact absurd hg h2
    | next hc hi ht hst a r' hs ho =>
      rcases ho with ho | ⟨k, d', hk, hk', _, hd, rfl⟩
      · injection hr with hr; exact absurd hr (ho d)
      · refine ⟨k, ?_, fun v hv => ?_⟩
        · rw [← hA.cur n hn hst]
          have h3 := certOf_nth hk
          rw [UInt8.toNat_add] at h3
          have h4 : r.occ.toNat < 256 := r.occ.toNat_lt
          have h5 : (1 : UInt8).toNat = 1 := rfl
          have h6 : nth k ≠ 0 := by cases k <;> simp_all [nth]
          omega
        · injection hr with hr
          injection hr with hr
          rw [← hr]
          exact take_cert (hd.symm.trans (h2 k v hv).1) (h2 k v hv).2

/-- C97: only PUT DATA of 7F21 answered 9000, and an installation, changes a certificate; and PUT DATA then changes just the
one that is meant. (The last under the condition of `Tidy`.) -/
theorem C97_only_put_partial (hx : x.Ok) (s : St) (hs : s.ram = none) (h : List (Op × Env)) (op : Op) (env : Env)
    (hb : BootsOk op env) (k : K)
    (hne : (step x (run x s [] h).1 op env).1.flash.certs k ≠ (run x s [] h).1.flash.certs k) :
    Reinstalls (run x s [] h).1.flash op ∨
    (∃ d, PutsCert op d) ∧ (Tidy (run x s [] h).2 → Ok (step x (run x s [] h).1 op env).2 ∧ k = meant (run x s [] h).2) := by
  have hA := run_agrees hx s hs h
  generalize (run x s [] h).1 = s', (run x s [] h).2 = log at *
  by_cases hre : Reinstalls s'.flash op
  · exact .inl hre
  refine .inr ?_
  by_cases hp : IsIns op 0xDA
  · obtain ⟨i, rfl, h1⟩ := hp
    have h2 := (step_put (x := x) (s := s') (env := env) h1).certs k hne
    refine ⟨⟨_, i, rfl, h1, h2, rfl⟩, fun ht => ?_⟩
    have := step_putCert (x := x) (env := env) (hA ht) h1 h2
    by_cases hok : Ok (step x s' (.apdu i) env).2
    · refine ⟨hok, ?_⟩
      rw [(this.1 hok).1, setCert_certs] at hne
      by_cases e : k = meant log
      · exact e
      · rw [if_neg e] at hne; exact absurd rfl hne
    · rw [this.2 hok] at hne; exact absurd rfl hne
  · rw [(step_still hx hb hp hre).certs] at hne
    exact absurd rfl hne

theorem process_disp_trk {Q E : Reply → Flash → Ram → Prop} {X : Flash → Ram → Prop} (hc : i.c.cla = 0)
    (hi : i.c.ins ≠ 0xCC) (ha : Active f) (h : ∀ r0, track i.c r = some r0 → wp noFault (dispatch x i 0) Q E X f r0) :
    wp noFault (process x i) Q E X f r := by
  obtain ⟨d, hd, ht⟩ := ha
  unfold process
  rw [if_neg (by simp [hc])]
  apply wp_bind; apply wp_get
  cases htr : track i.c r with
  | none =>
    unfold track at htr
    simp only at htr
    repeat' split at htr
    all_goals first | (cases htr; done) | simp_all
  | some r0 =>
    simp only []
    apply wp_bind; apply wp_mod
    apply wp_bind
    unfold getAttr
    refine wp_rdOr (fun t h0 => ?_) (fun h0 => ?_) (fun h => by cases h) (fun h => by cases h)
    · simp only [hd, ht, Option.bind_some, Option.some.injEq] at h0
      subst h0
      exact h r0 htr
    · simp [hd, ht] at h0

/-- C97, the part that holds: GET DATA of 7F21 is answered. Whatever happened before, with storage errors and power cuts, if
the history is tidy, an active applet answers with the certificate that is meant, if storage works now. -/
theorem C97_get_answers_partial (hx : x.Ok) (s : St) (hs : s.ram = none) (hf : s.flash = blank) (h : List (Op × Env))
    (hb : ∀ e ∈ h, BootsOk e.1 e.2) (ht : Tidy (run x s [] h).2) (v : Bytes)
    (hv : Holds (meant (run x s [] h).2) v (run x s [] h).2) (g : In) (env : Env) (henv : env.all noFault)
    (hon : (run x s [] h).1.ram ≠ none) (ha : Active (run x s [] h).1.flash) (hg : Gets 0x7F21 g) (hc : g.c.cla = 0)
    (hl : g.c.data = []) :
    (step x (run x s [] h).1 (.apdu g) env).2 = .reply (.resp v 0x9000) := by
  have hback := C97_read_back_partial hx s hs h hb ht v hv g env hg
  obtain ⟨h1, h2⟩ := run_holds hx s hs h hb
  obtain ⟨hcv, hcl⟩ := h2 ht _ _ hv
  have hA := h1 ht
  have hw := run_whole hx s (by rw [hf]; rintro ⟨d, hd, _⟩; cases hd) h [] ha
  generalize (run x s [] h).1 = s', (run x s [] h).2 = log at *
  obtain ⟨r, hr⟩ := Option.ne_none_iff_exists'.mp hon
  have hm : ∀ k, ((s'.flash.keys k).bind fun x => x.info) ≠ none := by
    intro k
    obtain ⟨p, hp, hk⟩ := hw.keys k
    rw [hp]; exact hk.2.2
  obtain ⟨a, f', r', ⟨d, rfl⟩, e⟩ := step_known (x := x) (i := g) henv hr (P := fun a _ _ => ∃ d, a = .resp d 0x9000) (by
    apply process_disp_trk hc (by rw [hg.1]; decide) ha
    intro r0 h0
    rw [show dispatch x g 0 = getData g by simp [dispatch, hg.1]]
    have h3 : tagOf g.c = 0x7F21 := hg.2
    have h4 := (hA r hr).get_occ hg.1 hg.2 h0
    unfold getData readMeta
    rw [if_neg (by simp [Apdu.Capdu.lc, hl])]
    simp only [h3, Nat.reduceEqDiff, if_false, if_true]
    apply wp_bind; refine wp_rdOr (fun _ _ => ?_) (fun h => absurd h (hm _)) (fun h => by cases h) (fun h => by cases h)
    apply wp_bind; refine wp_rdOr (fun _ _ => ?_) (fun h => absurd h (hm _)) (fun h => by cases h) (fun h => by cases h)
    apply wp_bind; refine wp_rdOr (fun _ _ => ?_) (fun h => absurd h (hm _)) (fun h => by cases h) (fun h => by cases h)
    apply wp_bind; apply wp_get
    rw [h4]
    simp only [readCert, hcv, Option.map_some]
    apply wp_bind; refine wp_rdOr (fun d _ => wp_pure ⟨d, rfl⟩) (fun h => ?_) (fun h => by cases h) (fun h => by cases h)
    rw [hcv] at h; cases h)
  rw [e] at hback ⊢
  rw [hback d rfl]

end Verif.Pgp

/-! ### Concrete cases -/

namespace Verif.Pgp.Ex
open Verif.Spec.Pgp Verif.Spec.PgpData Verif.Spec.PgpCert

def selData (n : Byte) : Op := cmd 0xA5 n 4 [0x60, 0x04, 0x5C, 0x02, 0x7F, 0x21]
def putCrt (b : Bytes) : Op := cmd 0xDA 0x7F 0x21 b
def getCrt : In := inp 0xCA 0x7F 0x21 []
def nextCrt : In := inp 0xCC 0x7F 0x21 []
def der (b : Bytes) : Out := .reply (.resp b 0x9000)

/-- Two certificates are written, the second by SELECT DATA; then all three are read, in a row and by number. -/
def certs : List Op := [.boot, verify3, putCrt [1, 2], selData 1, putCrt [3, 4, 5], .apdu getCrt, .apdu nextCrt, .apdu nextCrt,
  .apdu nextCrt, selData 1, .apdu getCrt, verify3, .apdu getCrt]
example : outs fresh (good certs) =
    [ok, ok, ok, ok, ok, der [1, 2], der [3, 4, 5], der [], sw 0x6A88, ok, der [3, 4, 5], ok, der [1, 2]] := by decide +kernel

/-- The hypotheses of the theorems are met: the second certificate is written, and selected again. -/
def certOps : List Op := [.boot, verify3, selData 1, putCrt [3, 4, 5], selData 1]
def st (n : Nat) : St := (run x ⟨fresh, none⟩ [] (good (certOps.take n))).1
theorem certLog : (run x ⟨fresh, none⟩ [] (good certOps)).2 =
    [(st 4, selData 1, ok), (st 3, putCrt [3, 4, 5], ok), (st 2, selData 1, ok), (st 1, verify3, ok), (st 0, .boot, ok)] := by
  simp only [run, good, certOps, List.map_cons, List.map_nil, st, List.take]
  refine List.cons_eq_cons.mpr ⟨?_, List.cons_eq_cons.mpr ⟨?_, List.cons_eq_cons.mpr ⟨?_, List.cons_eq_cons.mpr ⟨?_, List.cons_eq_cons.mpr ⟨?_, rfl⟩⟩⟩⟩⟩
  all_goals
    refine Prod.ext rfl (Prod.ext rfl ?_)
    decide +kernel
example : meant (run x ⟨fresh, none⟩ [] (good certOps)).2 = .dec := by decide +kernel
theorem certTidy : Tidy (run x ⟨fresh, none⟩ [] (good certOps)).2 := by
  rw [certLog]
  refine ⟨⟨⟨⟨⟨trivial, ?_, ?_, ?_⟩, ?_, ?_, ?_⟩, ?_, ?_, ?_⟩, ?_, ?_, ?_⟩, ?_, ?_, ?_⟩
  all_goals first
    | (rintro (h | h) <;> cases h; done)
    | (rintro d ⟨i, h, h1, _⟩ _; cases h; done)
    | (rintro d ⟨i, h, h1, _⟩ _; cases h; exact absurd h1 (by decide))
    | (rintro _ _ _; exact .inl ⟨[], rfl⟩)
    | (rintro _; decide)
theorem certHolds : Holds .dec [3, 4, 5] (run x ⟨fresh, none⟩ [] (good certOps)).2 := by
  rw [certLog]
  refine .inr (.inr ⟨?_, ?_, .inl ⟨⟨_, rfl, rfl, rfl, rfl⟩, ⟨[], rfl⟩, by decide +kernel⟩⟩)
  · rintro ⟨⟨d, i, h, h1, _⟩, _⟩
    cases h
    exact absurd h1 (by decide)
  · rintro (⟨⟨i, h, h1⟩, _⟩ | h | ⟨h, _⟩)
    · cases h
      exact absurd h1 (by decide)
    · cases h
    · cases h
example : (step x (run x ⟨fresh, none⟩ [] (good certOps)).1 (.apdu getCrt) Env.good).2 = .reply (.resp [3, 4, 5] 0x9000) :=
  C97_get_answers_partial xOk ⟨fresh, none⟩ rfl rfl (good certOps)
    (fun e he _ => good_all (A := cutsOnly) (by intro h; cases h) e he) certTidy [3, 4, 5]
    (by rw [show meant (run x ⟨fresh, none⟩ [] (good certOps)).2 = .dec by decide +kernel]; exact certHolds)
    getCrt Env.good (allGood rfl) (by decide +kernel) ⟨_, rfl, by decide +kernel⟩ ⟨rfl, rfl⟩ rfl rfl
example : cursor (run x ⟨fresh, none⟩ [] (good (certs.take 7))).2 = some 1 := by decide +kernel

/-- Left directly after SELECT DATA, the applet keeps the number: the certificate that is written next, meant to be the first,
replaces the second. -/
theorem C97_refuted :
    outs fresh (good [.boot, selData 1, .deselect, verify3, putCrt [7], .apdu getCrt, .apdu nextCrt]) =
      [ok, ok, .none, ok, ok, der [], der [7]] ∧
    meant (run x ⟨fresh, none⟩ [] (good [.boot, selData 1, .deselect, verify3])).2 = .sig := by decide +kernel

/-- The same after a write that was refused. -/
theorem C97_refuted_refused :
    outs fresh (good [.boot, selData 1, putCrt [7], verify3, putCrt [7], .apdu getCrt, .apdu nextCrt]) =
      [ok, ok, sw 0x6982, ok, ok, der [], der [7]] ∧
    meant (run x ⟨fresh, none⟩ [] (good [.boot, selData 1, putCrt [7], verify3])).2 = .sig := by decide +kernel

end Verif.Pgp.Ex
