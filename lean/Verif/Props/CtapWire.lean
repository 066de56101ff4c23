import Verif.Lemmas.CtapWideParse
import Verif.Props.CtapBlob
import Verif.Props.CtapResp
import Verif.Spec.CtapToy
/-
C90 over histories: whatever has been sent to the FIDO applet before, and wherever power was cut, each of its responses fits its
buffer and says what the command answered.
-/
namespace Verif.Ctap
open Cmd Verif.Spec.Resp

/-- The sizes of what is stored and in memory. -/
def Wide (s : St) : Prop := WideF s.flash ∧ WideR s.ram

theorem wideR_init : WideR Ram.init := ⟨Nat.zero_le _, rfl, rfl⟩
theorem wide_blank : Wide St.blank := ⟨⟨nofun, nofun, nofun⟩, wideR_init⟩

/-- What arrives: CTAP2 requests come out of the parsers, random numbers have their sizes. -/
def Arrives (x : Ext) : Op → Prop
  | .powerOn i => InOk i
  | .adminReset i => InOk i
  | .cbor i q => InOk i ∧ ∃ sm2 enc cmd v, Parse.parseReq x sm2 enc cmd v = .ok q
  | _ => True

variable {x : Ext}

/-- The sizes after a command that keeps them. -/
theorem wide_exec {α : Type} {m : M α} {P : α → Prop} (h : Wd m P) {g : α → Out} {s : St} (hs : Wide s) (env : Env)
    {O : Out → Prop} (h1 : ∀ a, P a → O (g a)) (h2 : ∀ c, O (.err c)) (h3 : ∀ u, O (.ub u)) (h4 : O .cut) :
    Wide (exec m g s env).1 ∧ O (exec m g s env).2 :=
  exec_wp (A := fun _ => True) (P := fun p => Wide p.1 ∧ O p.2) (fun _ => trivial) (h _ s.flash s.ram hs.1 hs.2)
    (fun a _ _ h => ⟨h.1, h1 a h.2⟩) (fun _ _ _ h => ⟨h, h2 _⟩) (fun _ _ _ h => ⟨h, h3 _⟩) (fun _ _ h => ⟨⟨h, wideR_init⟩, h4⟩)

theorem kw_installKey (k : Bytes) : Rel KeepW (installKeyM k) := by
  unfold installKeyM
  rels (keepw)

theorem kw_installCert (b : Bytes) : Rel KeepW (installCertM b) := by
  unfold installCertM
  rels (fresh1)

theorem kw_writeSm2 (b : Sm2) : Rel KeepW (writeSm2M b) := by
  unfold writeSm2M
  rels (keepw)

theorem kw_u2f (i : In) (q : UReq) : Rel KeepW (u2f x i q) := by
  unfold u2f uTouch makeAuthData
  cases q <;> rels (first | exact kw_increase | keepw)

/-- What is seen has its sizes. -/
def OutOk : Out → Prop
  | .resp r => Sized' r
  | _ => True

/-- **The sizes over a step.** -/
theorem wide_step (hx : ExtOk x) (hsha : ∀ b, (x.sha b).length = 32) {s : St} (hs : Wide s) {o : Op} (ho : Arrives x o) (env : Env) :
    Wide (step x s o env).1 ∧ OutOk (step x s o env).2 := by
  cases o with
  | powerOn i => exact wide_exec (Wd.of (kw_install ho false)) (s := ⟨s.flash, Ram.init⟩) ⟨hs.1, wideR_init⟩ env (fun _ _ => trivial) (fun _ => trivial) (fun _ => trivial) trivial
  | adminReset i => exact wide_exec (Wd.of (kw_install ho true)) hs env (fun _ _ => trivial) (fun _ => trivial) (fun _ => trivial) trivial
  | installKey k => exact wide_exec (Wd.of (kw_installKey k)) hs env (fun _ _ => trivial) (fun _ => trivial) (fun _ => trivial) trivial
  | installCert c => exact wide_exec (Wd.of (kw_installCert c)) hs env (fun _ _ => trivial) (fun _ => trivial) (fun _ => trivial) trivial
  | writeSm2 c => exact wide_exec (Wd.of (kw_writeSm2 c)) hs env (fun _ _ => trivial) (fun _ => trivial) (fun _ => trivial) trivial
  | u2f i q => exact wide_exec (Wd.of (kw_u2f i q)) hs env (fun _ _ => trivial) (fun _ => trivial) (fun _ => trivial) trivial
  | cbor i q =>
    obtain ⟨hi, sm2, enc, cmd, v, hq⟩ := ho
    have ha : WideR (aged i s.ram) := hs.2.same rfl (by
      show (Tok.observe _ _).token = _
      unfold Tok.observe
      (repeat' split) <;> rfl)
    exact cbor_wp (A := fun _ => True) (P := fun p => Wide p.1 ∧ OutOk p.2) (fun _ => trivial)
      (wd_handle hx hi (Parse.wide_parseReq hsha hq) _ s.flash _ hs.1 ha)
      (fun a f r h => ⟨⟨h.1.1, h.1.2.same rfl rfl⟩, h.2⟩) (fun c f r h => ⟨⟨h.1, h.2.same rfl rfl⟩, trivial⟩)
      (fun u f r h => ⟨h, trivial⟩) (fun f r h => ⟨⟨h, wideR_init⟩, trivial⟩)

theorem wide_run (hx : ExtOk x) (hsha : ∀ b, (x.sha b).length = 32) : ∀ (h : List (Op × Env)) {s : St}, Wide s → (∀ e ∈ h, Arrives x e.1) →
    Wide (run x s h).1 ∧ ∀ o ∈ (run x s h).2, OutOk o
  | [], _, hs, _ => ⟨hs, nofun⟩
  | (o, env) :: h, s, hs, ha => by
    have h1 := wide_step hx hsha hs (ha (o, env) (by simp)) env
    have h2 := wide_run hx hsha h h1.1 fun e he => ha e (by simp [he])
    refine ⟨h2.1, fun o' ho => ?_⟩
    rcases List.mem_cons.1 ho with rfl | ho
    · exact h1.2
    · exact h2.2 o' ho

/-- **C90, over histories.** After every history of an erased device, whatever arrives and wherever power is cut, each response of a
CTAP2 command stays inside its buffer, has the status 0, and a host that decodes it finds what the command answered; within the
limits of `Within`, and with fewer than 2^32 relying parties. -/
theorem C90_history_partial (hx : ExtOk x) (hsha : ∀ b, (x.sha b).length = 32) (h : List (Op × Env)) (ha : ∀ e ∈ h, Arrives x e.1)
    (r : Resp) (hr : Out.resp r ∈ (run x St.blank h).2) (hn : ∀ id hash n, r = .rp id hash (some n) → n < 2 ^ 32)
    (d : Enc.Dev) (hl : Lib d) (pri : Bytes) (hw : Enc.Within d r) (cap : Nat) (hc : 1300 ≤ cap) :
    ∃ b, Enc.message cap d pri r = some (0 :: b) ∧ b.length < cap ∧ Says d pri r b :=
  Enc.C90_messages_partial d hl pri r ((wide_run hx hsha h wide_blank ha).2 _ hr hn) hw cap hc

/-! ### The hypotheses are met -/

open Toy in
/-- The toy cryptography with a public key of the right size. -/
def Toy.sizedExt : Ext := { ext with kaPub := fun _ => List.replicate 64 9 }

theorem Toy.sizedExt_ok : ExtOk Toy.sizedExt := by
  refine ⟨fun k m => ?_, fun _ => rfl, fun _ _ _ => rfl⟩
  show (Toy.hmac k m).length = 32
  unfold Toy.hmac
  simp

theorem Toy.env_ok (t : UInt32) : InOk (Toy.env t) := ⟨rfl, rfl, rfl⟩

open Parse in
/-- A makeCredential request for a resident credential, as an item. -/
def Toy.mcItem : Cbor := .map [(.int 1, .bytes (List.replicate 32 0x77)), (.int 2, .map [(.text (str "id"), .text (str "a.b"))]),
  (.int 3, .map [(.text (str "id"), .bytes [1]), (.text (str "name"), .text (str "x"))]),
  (.int 4, .arr [.map [(.text (str "type"), .text (str "public-key")), (.text (str "alg"), .int (-7))]]),
  (.int 7, .map [(.text (str "rk"), .bool true)])]

/-- What the parser makes of it. -/
def Toy.parsed : Req := match Parse.parseReq Toy.sizedExt ⟨false, 0xFFFFFFD0⟩ (fun _ => []) 0x01 Toy.mcItem with
  | .ok q => q
  | .error _ => .sel

/-- A device is produced; a host registers a resident credential. -/
def Toy.wireHistory : List (Op × Env) := [(.powerOn (Toy.env 0), Toy.fine), (.installCert [0x30], Toy.fine),
  (.installKey (List.replicate 32 1), Toy.fine), (.powerOn (Toy.env 0), Toy.fine), (.cbor (Toy.env 20000) Toy.parsed, Toy.fine)]

theorem Toy.wire_arrives : ∀ e ∈ Toy.wireHistory, Arrives Toy.sizedExt e.1 := by
  intro e he
  unfold Toy.wireHistory at he
  simp only [List.mem_cons, List.not_mem_nil, or_false] at he
  rcases he with rfl | rfl | rfl | rfl | rfl
  · exact Toy.env_ok 0
  · exact trivial
  · exact trivial
  · exact Toy.env_ok 0
  · exact ⟨Toy.env_ok 20000, ⟨false, 0xFFFFFFD0⟩, (fun _ => []), 0x01, Toy.mcItem, rfl⟩

/-- The history arrives, and its last answer is a registration. -/
example : (∀ e ∈ Toy.wireHistory, Arrives Toy.sizedExt e.1) ∧ ∃ r, Out.resp (.mc r) ∈ (run Toy.sizedExt St.blank Toy.wireHistory).2 := by
  refine ⟨Toy.wire_arrives, ?_⟩
  have : ((run Toy.sizedExt St.blank Toy.wireHistory).2.any fun o => match o with
    | .resp (.mc _) => true
    | _ => false) = true := by decide +kernel
  obtain ⟨o, ho, h⟩ := List.any_eq_true.1 this
  split at h
  · exact ⟨_, ho⟩
  · cases h

end Verif.Ctap
