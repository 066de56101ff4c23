import Verif.Lemmas.PgpWhole
import Verif.Props.PgpEx
/-
Properties of the data objects of the OpenPGP applet (C96).
-/
set_option linter.unusedSimpArgs false
namespace Verif.Pgp
open Cmd Verif.Spec.Pgp Verif.Spec.PgpData Verif.KeyFile

variable {A : Fault → Prop} {x : Ext} {i : In} {f f' : Flash} {r r' : Ram}

theorem run_fits (hx : x.Ok) : ∀ (h : List (Op × Env)) (s : St) (log : List Entry), Fits s.flash → Fits (run x s log h).1.flash :=
  fun h s log hf => run_inv (x := x) (I := fun _ s => Fits s.flash) (P := fun _ _ => True)
    (fun _ _ _ _ _ hi => step_fits hx hi) h s log (fun _ _ => trivial) hf

theorem blank_fits : Fits blank := ⟨fun _ h => (by cases h), fun _ _ h => (by cases h), fun _ _ h => (by cases h)⟩

/-- What does not concern an object leaves it alone. -/
theorem run_val (hx : x.Ok) (o : Obj) (h : List (Op × Env)) (s : St) (hb : ∀ e ∈ h, BootsOk e.1 e.2)
    (hl : ∀ e ∈ (run x s [] h).2, ¬ (Writes o e.2.1 ∧ Ok e.2.2) ∧ ¬ Reinstalls e.1.flash e.2.1) :
    val o (run x s [] h).1.flash = val o s.flash := by
  refine run_inv (x := x) (P := BootsOk) (I := fun log s' => (∀ e ∈ log, ¬ (Writes o e.2.1 ∧ Ok e.2.2) ∧ ¬ Reinstalls e.1.flash e.2.1) →
    val o s'.flash = val o s.flash) ?_ h s [] hb (fun _ => rfl) hl
  intro s' log op env hb ih hl
  have h0 := hl _ (List.mem_cons_self ..)
  refine Eq.trans ?_ (ih fun e he => hl e (List.mem_cons_of_mem _ he))
  by_cases hp : IsIns op 0xDA
  · obtain ⟨i, rfl, hi⟩ := hp
    have h1 := step_put (x := x) (s := s') (env := env) hi
    by_cases ht : tagOf i.c = o.tag
    · exact h1.no (fun hk => h0.1 ⟨⟨i, rfl, hi, ht⟩, hk⟩) o
    · exact h1.other o ht
  · exact (step_still hx hb hp h0.2).objs o

/-- C96: what PUT DATA has written, GET DATA shows. `s` is a blank device, `h₁` any history of it. Then an object is written with
`d`, answered 9000. `h₂` is any further history, with storage errors and power cuts, in which the object is not written
again and the applet is not installed anew. If GET DATA for the object (or for the object that contains it) is answered
9000 then, the object is in the response and is what is to be read after `d` was written. -/
theorem C96_put_then_get (hx : x.Ok) (s : St) (hs : s.flash = blank) (h₁ h₂ : List (Op × Env)) (o : Obj) (d : Bytes) (i g : In)
    (e₁ e₂ : Env) (hi : PutsValue o d i) (hok : Ok (step x (run x s [] h₁).1 (.apdu i) e₁).2)
    (hb : ∀ e ∈ h₂, BootsOk e.1 e.2)
    (hl : ∀ e ∈ (run x (step x (run x s [] h₁).1 (.apdu i) e₁).1 [] h₂).2,
      ¬ (Writes o e.2.1 ∧ Ok e.2.2) ∧ ¬ Reinstalls e.1.flash e.2.1)
    (hg : Gets o.request g) (hsn : g.sn.length ≤ 6) (resp : Bytes)
    (ho : (step x (run x (step x (run x s [] h₁).1 (.apdu i) e₁).1 [] h₂).1 (.apdu g) e₂).2 = .reply (.resp resp 0x9000)) :
    ∃ v, o.inside resp = some v ∧ o.Reads d v := by
  have f1 : Fits (run x s [] h₁).1.flash := run_fits hx _ _ _ (by rw [hs]; exact blank_fits)
  have hp := step_put (x := x) (s := (run x s [] h₁).1) (env := e₁) hi.1
  obtain ⟨v, hv, hr⟩ := hp.yes hok f1 o hi.2.1 (by rw [hi.2.2.1]; exact hi.2.2.2)
  have f2 := run_fits hx h₂ _ [] (hp.fits f1)
  obtain ⟨⟨v', hv', hi'⟩, _⟩ := (step_get (A := anyFault) (x := x) anyAll o hg.1 hg.2).2 resp ho hsn f2
  rw [run_val hx o h₂ _ hb hl, hv] at hv'
  injection hv' with e; subst e
  exact ⟨_, hi', hi.2.2.1 ▸ hr⟩

/-- C96: nothing else changes an object. Between two GET DATA answered 9000 that show it, if it was not written (a PUT DATA
that is refused or interrupted does not count) and the applet was not installed anew, it is the same. -/
theorem C96_kept (hx : x.Ok) (s : St) (hs : s.flash = blank) (h₁ h₂ : List (Op × Env)) (o : Obj) (g g' : In) (e₁ e₂ : Env)
    (hg : Gets o.request g) (hsn : g.sn.length ≤ 6) (hg' : Gets o.request g') (hsn' : g'.sn.length ≤ 6) (resp resp' : Bytes)
    (hr : (step x (run x s [] h₁).1 (.apdu g) e₁).2 = .reply (.resp resp 0x9000))
    (hb : ∀ e ∈ h₂, BootsOk e.1 e.2)
    (hl : ∀ e ∈ (run x (step x (run x s [] h₁).1 (.apdu g) e₁).1 [] h₂).2,
      ¬ (Writes o e.2.1 ∧ Ok e.2.2) ∧ ¬ Reinstalls e.1.flash e.2.1)
    (hr' : (step x (run x (step x (run x s [] h₁).1 (.apdu g) e₁).1 [] h₂).1 (.apdu g') e₂).2 = .reply (.resp resp' 0x9000)) :
    o.inside resp' = o.inside resp ∧ o.inside resp ≠ none := by
  have f1 : Fits (run x s [] h₁).1.flash := run_fits hx _ _ _ (by rw [hs]; exact blank_fits)
  have hp := step_get (A := anyFault) (x := x) (s := (run x s [] h₁).1) (env := e₁) anyAll o hg.1 hg.2
  obtain ⟨⟨v, hv, hi⟩, _⟩ := hp.2 resp hr hsn f1
  have f2 : Fits (step x (run x s [] h₁).1 (.apdu g) e₁).1.flash := by rw [hp.1]; exact f1
  obtain ⟨⟨v', hv', hi'⟩, _⟩ := (step_get (A := anyFault) (x := x) anyAll o hg'.1 hg'.2).2 resp' hr' hsn' (run_fits hx h₂ _ [] f2)
  rw [run_val hx o h₂ _ hb hl, hp.1, hv] at hv'
  injection hv' with e; subst e
  rw [hi, hi']
  exact ⟨rfl, by simp⟩

theorem shown_tries {p : Pin.Flash} {b : Byte} (h : Shown cutsOnly p b) : triesLeft p = some b.toNat := by
  obtain ⟨n, h, rfl⟩ := h
  cases h with
  | empty q hp hd => simp [triesLeft, hp, hd]
  | some q c hp hc hd =>
    have hd := hd.resolve_right (fun h => h rfl)
    simp [triesLeft, hp, hd, hc]

/-- C96: the PW status bytes in the application related data show the tries that are left for PW1, the resetting code and PW3. -/
theorem C96_tries_shown (hx : x.Ok) (s : St) (hs : s.flash = blank) (h : List (Op × Env)) (g : In) (env : Env)
    (henv : env.all cutsOnly) (hg : Gets 0x6E g) (hsn : g.sn.length ≤ 6) (resp : Bytes)
    (hr : (step x (run x s [] h).1 (.apdu g) env).2 = .reply (.resp resp 0x9000)) :
    ∃ a b c d : Byte, path [0x6E, 0x73, 0xC4] resp = some [d, 64, 64, 64, a, b, c] ∧
      triesLeft (run x s [] h).1.flash.pw1 = some a.toNat ∧ triesLeft (run x s [] h).1.flash.rc = some b.toNat ∧
      triesLeft (run x s [] h).1.flash.pw3 = some c.toNat := by
  have f1 : Fits (run x s [] h).1.flash := run_fits hx _ _ _ (by rw [hs]; exact blank_fits)
  have hp := step_get (x := x) (s := (run x s [] h).1) henv .pw hg.1 hg.2
  obtain ⟨pw, ⟨d, a, b, c, rfl, hv, h1, h2, h3⟩, ht⟩ := (hp.2 resp hr hsn f1).2 rfl
  exact ⟨a, b, c, d, ht, shown_tries h1, shown_tries h2, shown_tries h3⟩

/-- C96: GET DATA 00FA lists, for each of the three keys, the algorithms that are offered for it, and nothing else. -/
theorem C96_offers (s : St) (g : In) (env : Env) (hg : Gets 0xFA g) (resp : Bytes)
    (hr : (step x s (.apdu g) env).2 = .reply (.resp resp 0x9000)) :
    decode resp = some ([K.sig, K.dec, K.aut].flatMap fun k => (offered k).map fun a => (0xC1 + nth k, a)) := by
  have key : resp = algoInfos := by
    cases hram : s.ram with
    | none =>
      obtain ⟨f, ram⟩ := s
      dsimp only at hram; subst hram
      cases hr
    | some r =>
      obtain ⟨out, f', r', h, e⟩ := step_any (x := x) (i := g) (s := s) (env := env) anyAll hram
        (P := fun out _ _ => ∀ d, out = .done (.resp d 0x9000) → d = algoInfos)
        (fun sw r' h d e => by injection e with e; injection e with _ e; exact absurd e h)
        (fun r' d e => by cases e)
        (fun r0 t _ _ _ => by
          have ht : tagOf g.c = 0xFA := hg.2
          rw [show dispatch x g t = getData g by simp [dispatch, hg.1]]
          unfold getData
          simp only [ht, readMeta, Nat.reduceEqDiff, if_false, if_true]
          wps
          all_goals
            intros
            rename_i d e
            first
              | (injection e with e; injection e with e; exact e.symm)
              | (injection e with e; injection e with _ e; exact absurd e (by decide))
              | cases e)
      rw [e] at hr
      cases out with
      | cut => cases hr
      | done a => injection hr with hr; exact h resp (by rw [hr])
  subst key
  decide +kernel

theorem run_whole (hx : x.Ok) (s : St) (hs : Active s.flash → Whole s.flash) (h : List (Op × Env)) (log : List Entry) :
    Active (run x s log h).1.flash → Whole (run x s log h).1.flash :=
  run_inv (x := x) (I := fun _ s => Active s.flash → Whole s.flash) (P := fun _ _ => True)
    (fun _ _ _ _ _ hi => step_whole hx hi) h s log (fun _ _ => trivial) hs

/-- C96: GET DATA is answered. Whatever happened before, with storage errors and power cuts, an active applet answers GET DATA
for any object with 9000, if storage works now; the response has the object. -/
theorem C96_get_answers (hx : x.Ok) (s : St) (hs : s.flash = blank) (h : List (Op × Env)) (o : Obj) (g : In) (env : Env)
    (henv : env.all noFault) (hon : (run x s [] h).1.ram ≠ none) (ha : Active (run x s [] h).1.flash) (hg : Gets o.request g)
    (hc : g.c.cla = 0) (hl : g.c.data = []) (hsn : g.sn.length ≤ 6) :
    ∃ resp v, (step x (run x s [] h).1 (.apdu g) env).2 = .reply (.resp resp 0x9000) ∧ o.inside resp = some v := by
  have hf : Fits (run x s [] h).1.flash := run_fits hx _ _ _ (by rw [hs]; exact blank_fits)
  have hw := run_whole hx s (by rw [hs]; rintro ⟨d, hd, _⟩; cases hd) h [] ha
  obtain ⟨r, hr⟩ := Option.ne_none_iff_exists'.mp hon
  generalize (run x s [] h).1 = s' at *
  obtain ⟨a, f', r', ⟨d, rfl, hd⟩, e⟩ := step_known (x := x) (i := g) henv hr
    (P := fun a _ _ => ∃ d, a = .resp d 0x9000 ∧ Has o s'.flash d) (by
      apply process_disp hc (by rw [hg.1]; decide) ha
      intro r0 _
      rw [show dispatch x g 0 = getData g by simp [dispatch, hg.1]]
      refine wp_mono (getData_has (A := noFault) (i := g) (f := s'.flash) (r := r0) o hg.2) ?_ ?_ ?_
      · rintro a f' r' ⟨rfl, d, rfl, h⟩
        exact ⟨d, rfl, (h hsn hf).1⟩
      · rintro a f' r' ⟨rfl, _, h | h | h | h⟩
        · exact absurd (by simp [Apdu.Capdu.lc, hl]) h
        · cases h
        · exact absurd h hw.lacks
        · exact absurd hf h
      · rintro f' r' ⟨h, _⟩; cases h)
  obtain ⟨v, _, hv⟩ := hd
  exact ⟨d, v, by rw [e], hv⟩

end Verif.Pgp

/-! ### Concrete cases -/

namespace Verif.Pgp.Ex
open Verif.Spec.Pgp Verif.Spec.PgpData

/-- NIST P-256 for the signature key, with the wrong algorithm byte of ECDH. -/
def putP256 : In := inp 0xDA 0 0xC1 [0x12, 0x2A, 0x86, 0x48, 0xCE, 0x3D, 0x03, 0x01, 0x07]
def get6E : In := inp 0xCA 0 0x6E []
def get65 : In := inp 0xCA 0 0x65 []
def getFA : In := inp 0xCA 0 0xFA []
def dataOf : Out → Bytes
  | .reply (.resp d _) => d
  | _ => []

/-- From a blank device: PW3, the attributes, a refused second write, a start anew; then GET DATA of 6E. -/
def before : List (Op × Env) := good [.boot, verify3]
def between : List (Op × Env) := good [.deselect, .apdu putP256, .boot, verify3, .apdu putName]
def wrote : St := (step x (run x ⟨fresh, none⟩ [] before).1 (.apdu putP256) Env.good).1
def atLast : St := (run x wrote [] between).1

example : Ok (step x (run x ⟨fresh, none⟩ [] before).1 (.apdu putP256) Env.good).2 ∧
    PutsValue (.alg .sig) [0x12, 0x2A, 0x86, 0x48, 0xCE, 0x3D, 0x03, 0x01, 0x07] putP256 ∧
    ((run x wrote [] between).2.map (·.2.2)).reverse = [.none, sw 0x6982, ok, ok, ok] ∧
    Gets (Obj.alg .sig).request get6E ∧ get6E.sn.length ≤ 6 ∧
    (step x atLast (.apdu get6E) Env.good).2 = .reply (.resp (dataOf (step x atLast (.apdu get6E) Env.good).2) 0x9000) ∧
    (Obj.alg .sig).inside (dataOf (step x atLast (.apdu get6E) Env.good).2) =
      some [0x13, 0x2A, 0x86, 0x48, 0xCE, 0x3D, 0x03, 0x01, 0x07] :=
  ⟨⟨[], by decide +kernel⟩, ⟨rfl, rfl, rfl, fun h => (by cases h)⟩, by decide +kernel, ⟨rfl, rfl⟩, by decide +kernel, by decide +kernel,
    by decide +kernel⟩

example : (Obj.alg .sig).Reads [0x12, 0x2A, 0x86, 0x48, 0xCE, 0x3D, 0x03, 0x01, 0x07] [0x13, 0x2A, 0x86, 0x48, 0xCE, 0x3D, 0x03, 0x01, 0x07] :=
  ⟨by decide +kernel, .inl (by decide)⟩

/-- The name, and the languages of the factory. -/
example : Obj.name.inside (dataOf (step x atLast (.apdu get65) Env.good).2) = some [0x41] ∧
    Obj.lang.inside (dataOf (step x atLast (.apdu get65) Env.good).2) = some [] := by decide +kernel

/-- A wrong PIN, then the PW status bytes. -/
example : path [0x6E, 0x73, 0xC4] (dataOf (step x (run x ⟨fresh, none⟩ [] (good [.boot, cmd 0x20 0 0x81 pin3])).1
    (.apdu get6E) Env.good).2) = some [0, 64, 64, 64, 2, 0, 3] := by decide +kernel

example : ∃ resp v, (step x (run x ⟨fresh, none⟩ [] before).1 (.apdu get65) Env.good).2 = .reply (.resp resp 0x9000) ∧
    Obj.sex.inside resp = some v :=
  C96_get_answers xOk ⟨fresh, none⟩ rfl before .sex get65 Env.good (allGood rfl) (by decide +kernel) ⟨_, rfl, by decide +kernel⟩
    ⟨rfl, rfl⟩ rfl rfl (by decide)

example : (step x (run x ⟨fresh, none⟩ [] before).1 (.apdu getFA) Env.good).2 = .reply (.resp algoInfos 0x9000) := by decide +kernel

end Verif.Pgp.Ex
