import Verif.Base.Tac
import Verif.Base.Calc
import Verif.Spec.Piv
import Verif.Lemmas.PinEff
/-
Effects of the PIV commands.
-/
set_option linter.unusedSimpArgs false
namespace Verif.Piv
open Cmd Verif.Spec.Piv Verif.KeyFile

variable {A : Fault → Prop} {x : Ext} {i : In} {f : Flash} {r : Ram}

/-- Status words that report an error without saying anything about the PIN. -/
def errs : List Nat :=
  [0x6A86, 0x6700, 0x6A80, 0x6A82, 0x6A88, 0x6982, 0x6985, 0x6900, 0x6600, 0x6D00, 0x6E00]

/-- The command was refused without response data, or is undefined behaviour. -/
def Bad (o : Outcome Reply) : Prop := (∃ u, o = .done (.ub u)) ∨ ∃ sw ∈ errs, o = .done (.sw sw)

theorem bad_sw {sw : Nat} (h : sw ∈ errs) : Bad (.done (.sw sw)) := .inr ⟨sw, h, rfl⟩
theorem bad_io : Bad (.done ioErr) := .inr ⟨0x6900, by decide, rfl⟩

theorem wp_onPin {α : Type} {w : Which} {m : Pin.M α} {Q : α → Flash → Ram → Prop} {E : Reply → Flash → Ram → Prop}
    {X : Flash → Ram → Prop} {P : α → Pin.Flash → Pin.Ram → Prop} {Y : Pin.Flash → Pin.Ram → Prop}
    (h : wp A (Cmd.lift m : Cmd Pin.Flash Pin.Ram Reply α) P (fun _ _ _ => False) Y
      ((partF w).get f) ((partR w).get r))
    (hQ : ∀ a p q, P a p q → Q a ((partF w).set p f) ((partR w).set q r))
    (hX : ∀ p q, Y p q → X ((partF w).set p f) ((partR w).set q r)) :
    wp A (onPin w m) Q E X f r := by
  unfold onPin
  apply wp_zoom
  exact wp_mono h (fun a p q h => hQ a p q h) (fun _ _ _ h => h.elim) (fun p q h => hX p q h)

@[simp] theorem set_get_F {w : Which} : (partF w).set ((partF w).get f) f = f := by cases w <;> rfl
@[simp] theorem set_get_R {w : Which} : (partR w).set ((partR w).get r) r = r := by cases w <;> rfl
@[simp] theorem get_set_F {w : Which} {p : Pin.Flash} : (partF w).get ((partF w).set p f) = p := by cases w <;> rfl
@[simp] theorem get_set_R {w : Which} {p : Pin.Ram} : (partR w).get ((partR w).set p r) = p := by cases w <;> rfl

/-! ### SELECT and reading -/

/-- Variables after SELECT. -/
def selected (r : Ram) : Ram :=
  authReset { r with admin := false, consumed := false, pin := ⟨false⟩, puk := ⟨false⟩, write := none, read := none }

inductive SelEff (r : Ram) : Outcome Reply → Ram → Prop
  | bad (o : Outcome Reply) (h : Bad o) : SelEff r o r
  | ok (d : Bytes) : SelEff r (.done (.resp d 0x9000)) (selected r)

theorem select_wp (c : Apdu.Capdu) :
    wp A (select c) (fun a f' r' => SelEff r (.done a) r' ∧ f' = f) (fun a f' r' => SelEff r (.done a) r' ∧ f' = f)
      (fun _ _ => False) f r := by
  unfold select
  wps
  · exact ⟨.bad _ (bad_sw (by decide)), rfl⟩
  · exact ⟨.ok _, rfl⟩

/-- The outcomes of GET DATA and GET RESPONSE. -/
inductive GetEff (A : Fault → Prop) (f : Flash) (r : Ram) : Outcome Reply → Ram → Prop
  | bad (o : Outcome Reply) (h : Bad o) : GetEff A f r o r
  | cut (h : A .cut) (r' : Ram) : GetEff A f r .cut r'
  | disc : GetEff A f r (.done (.resp discovery 0x9000)) r
  | first (o : Obj) (b d : Bytes) (hb : f.objs o = some b) (hp : Protected o → r.pin.validated = true)
      (sw : Nat) (r' : Ram) (hr : r' = r ∧ sw = 0x9000 ∧ d = b ∨ r' = { r with path := some o, read := some d.length }
        ∧ ∃ n, 0 < n ∧ sw = moreSw n ∧ b.length = d.length + n ∧ d = b.take d.length) :
      GetEff A f r (.done (.resp d sw)) r'
  | next (o : Obj) (b d : Bytes) (hb : f.objs o = some b) (off : Nat) (ho : r.read = some off) (hp : r.path = some o)
      (hd : d = (b.drop off).take d.length)
      (sw : Nat) (r' : Ram) (hr : r' = { r with read := none, path := none } ∨ r' = { r with read := some (off + d.length) }) :
      GetEff A f r (.done (.resp d sw)) r'

theorem protected_of {t : Byte} {o : Obj} (h : objOf t = some o) (hp : Protected o) : t = 0x09 ∨ t = 0x03 ∨ t = 0x08 := by
  have : ∀ t : Byte, ∀ o, objOf t = some o → Protected o → t = 0x09 ∨ t = 0x03 ∨ t = 0x08 := by
    intro t o h hp
    unfold objOf at h
    repeat' split at h
    all_goals first
      | (cases h; exact hp.elim)
      | simp_all
  exact this t o h hp

theorem getLarge_wp {c : Apdu.Capdu} {o : Obj} {b : Bytes} (hb : f.objs o = some b)
    (hp : Protected o → r.pin.validated = true) :
    wp A (getLargeData c o b.length) (fun a f' r' => GetEff A f r (.done a) r' ∧ f' = f)
      (fun a f' r' => GetEff A f r (.done a) r' ∧ f' = f) (fun f' r' => GetEff A f r .cut r' ∧ f' = f) f r := by
  unfold getLargeData
  wps
  · next h0 h =>
    rw [hb] at h0; cases h0
    refine ⟨.first o b _ hb hp _ _ (.inl ⟨rfl, rfl, ?_⟩), rfl⟩
    simp at h ⊢
    rw [List.take_of_length_le (by omega)]
  · next h0 h =>
    rw [hb] at h0; cases h0
    refine ⟨.first o b _ hb hp _ _ (.inr ⟨rfl, _, ?_, rfl, ?_, ?_⟩), rfl⟩ <;> simp at h ⊢ <;> omega
  · exact ⟨.bad _ bad_io, rfl⟩
  · exact ⟨.bad _ bad_io, rfl⟩
  · exact ⟨.cut ‹_› _, rfl⟩

/-- Closes exits without effect. -/
macro "bads" : tactic => `(tactic| first
  | exact ⟨.bad _ (bad_sw (by decide)), rfl⟩
  | exact ⟨.bad _ bad_io, rfl⟩
  | exact ⟨.cut ‹_› _, rfl⟩)

theorem getData_wp (c : Apdu.Capdu) :
    wp A (getData c) (fun a f' r' => GetEff A f r (.done a) r' ∧ f' = f)
      (fun a f' r' => GetEff A f r (.done a) r' ∧ f' = f) (fun f' r' => GetEff A f r .cut r' ∧ f' = f) f r := by
  unfold getData
  wps
  all_goals try bads
  · exact ⟨.disc, rfl⟩
  · next hs _ _ _ _ _ _ _ _ _ hv _ _ ho _ hb _ =>
    cases hf : f.objs _ with
    | none => rw [hf] at hb; cases hb
    | some b =>
      rw [hf] at hb; cases hb
      refine getLarge_wp hf fun hp => ?_
      rcases protected_of ho hp with h | h | h <;> subst h <;> simpa using hv

theorem getResp_wp (c : Apdu.Capdu) :
    wp A (getDataResponse c) (fun a f' r' => GetEff A f r (.done a) r' ∧ f' = f)
      (fun a f' r' => GetEff A f r (.done a) r' ∧ f' = f) (fun f' r' => GetEff A f r .cut r' ∧ f' = f) f r := by
  unfold getDataResponse
  wps
  all_goals try bads
  · next off hr _ o hp _ _ d hd _ =>
    obtain ⟨b, hb, hd⟩ := Option.map_eq_some_iff.mp hd
    exact ⟨.next o b d hb off hr hp (by rw [← hd]; simp) _ _ (.inl rfl), rfl⟩
  · next off hr _ o hp _ _ d hd _ =>
    obtain ⟨b, hb, hd⟩ := Option.map_eq_some_iff.mp hd
    exact ⟨.next o b d hb off hr hp (by rw [← hd]; simp) _ _ (.inr rfl), rfl⟩

/-! ### PIN and PUK -/

/-- The outcomes of presenting a PIN; `none` is success. -/
inductive ChkEff (A : Fault → Prop) (w : Which) (data : Bytes) (f : Flash) (r : Ram) :
    Option Reply → Flash → Ram → Prop
  | io (h : Pin.Io A ((partF w).get f)) : ChkEff A w data f r (some ioErr) f ((partR w).set ⟨false⟩ r)
  | blocked (q : Pin.PinFile) (hq : (partF w).get f = some q) (hc : q.ctr = some 0) :
      ChkEff A w data f r (some (.sw 0x6983)) f ((partR w).set ⟨false⟩ r)
  | wrong (q : Pin.PinFile) (n : UInt8) (hq : (partF w).get f = some q) (hc : q.ctr = some n) (hz : n ≠ 0)
      (hm : data.take 8 ≠ q.data.take 64) (sw : Nat)
      (hsw : sw = (if n = 1 then 0x6983 else 0x63C0 + (n - 1).toNat)) :
      ChkEff A w data f r (some (.sw sw)) ((partF w).set (some { q with ctr := some (n - 1) }) f)
        ((partR w).set ⟨false⟩ r)
  | rightIo (hs : Shows ((partF w).get f) data) (h : Pin.Io A ((partF w).get f)) :
      ChkEff A w data f r (some ioErr) f ((partR w).set ⟨true⟩ r)
  | right (hs : Shows ((partF w).get f) data) (q : Pin.PinFile) (d : UInt8) (hq : (partF w).get f = some q)
      (hd : q.dflt = some d) :
      ChkEff A w data f r none ((partF w).set (some { q with ctr := some d }) f) ((partR w).set ⟨true⟩ r)

/-- `memcmp_s` of different buffers is neither 0 nor 1. -/
def Ext.Ok (x : Ext) : Prop := x.neq ≠ 0 ∧ x.neq ≠ 1

theorem len8 {x : Ext} : Pin.lenOk (pinCfg x) 8 := ⟨(by decide : (8 : UInt8) ≤ 8), (by decide : (8 : UInt8) ≤ 8)⟩

theorem check_wp (w : Which) (hx : x.Ok) (hl : 8 ≤ i.c.data.length) :
    wp A (checkPin x i w) (fun _ => ChkEff A w i.c.data f r none) (fun e => ChkEff A w i.c.data f r (some e))
      (fun f' _ => f' = f ∧ A .cut) f r := by
  unfold checkPin
  apply wp_bind
  apply wp_onPin (Pin.verify_wp (A := A) (cfg := pinCfg x) (st := i.stack) (l := 8) hx hl)
  · rintro ⟨rc, ctr⟩ p q h
    cases h with
    | length h => exact absurd len8 h
    | io n h =>
      rw [set_get_F]
      exact wp_throw (.io h)
    | blocked p hp hc =>
      rw [set_get_F]
      exact wp_throw (.blocked p hp hc)
    | wrong p n hp hc hz hl hm =>
      show wp _ (do if n - 1 == 0 then _ else _) _ _ _ _ _
      by_cases h1 : n = 1
      · subst h1
        exact wp_throw (.wrong p 1 hp hc hz hm _ rfl)
      · have h2 : (n - 1 == 0) = false := by
          simp only [beq_eq_false_iff_ne, ne_eq]
          intro e; apply h1
          have : n = 0 + 1 := by rw [← e]; simp
          simpa using this
        rw [h2]
        exact wp_throw (.wrong p n hp hc hz hm _ (by rw [if_neg h1]))
    | right p n d hp hc hz hl' hm hd =>
      show wp _ (do if n == 0 then _ else _) _ _ _ _ _
      rw [(by simpa using hz : (n == 0) = false)]
      exact wp_pure (.right ⟨p, n, hp, hc, hz, hl, hm⟩ p d hp hd)
    | rightIo p n hp hc hz hl' hm h =>
      rw [set_get_F]
      exact wp_throw (.rightIo ⟨p, n, hp, hc, hz, hl, hm⟩ h)
  · rintro p q ⟨h1, h2⟩
    subst h2
    exact ⟨set_get_F, h1⟩

/-- Objects, keys and configuration are unchanged. -/
structure PinOnly (f f' : Flash) : Prop where
  objs : f'.objs = f.objs
  keys : f'.keys = f.keys
  mgmt : f'.mgmt = f.mgmt
  alg : f'.alg = f.alg

theorem PinOnly.rfl' : PinOnly f f := ⟨rfl, rfl, rfl, rfl⟩
theorem PinOnly.set {f f' : Flash} {w : Which} {p : Pin.Flash} (h : PinOnly f f') :
    PinOnly f ((partF w).set p f') := by
  cases w <;> exact ⟨h.1, h.2, h.3, h.4⟩

/-- The outcomes of VERIFY. -/
inductive VerifyEff (A : Fault → Prop) (i : In) (f : Flash) (r : Ram) : Outcome Reply → Flash → Ram → Prop
  | bad (o : Outcome Reply) (h : Bad o) : VerifyEff A i f r o f r
  | cut (h : A .cut) (r' : Ram) : VerifyEff A i f r .cut f r'
  | query (h : r.pin.validated = true) (hp : i.c.p1 = 0) : VerifyEff A i f r (.done (.sw 0x9000)) f r
  | queryNo (n : Nat) (h : r.pin.validated = false) (hn : n ≤ 255) :
      VerifyEff A i f r (.done (.sw (0x63C0 + n))) f r
  | logout (hp : i.c.p1 = 0xFF) :
      VerifyEff A i f r (.done (.sw 0x9000)) f { r with pin := ⟨false⟩, consumed := false }
  | chk (e : Reply) (f' : Flash) (r' : Ram) (hp : i.c.p1 = 0) (hp2 : i.c.p2 = 0x80) (hl : i.c.data.length = 8)
      (h : ChkEff A .pin i.c.data f r (some e) f' r') :
      VerifyEff A i f r (.done e) f' r'
  | right (f' : Flash) (r' : Ram) (hp : i.c.p1 = 0) (hp2 : i.c.p2 = 0x80) (hl : i.c.data.length = 8)
      (h : ChkEff A .pin i.c.data f r none f' r') :
      VerifyEff A i f r (.done (.sw 0x9000)) f' { r' with consumed := false }

theorem verify_wp (hx : x.Ok) :
    wp A (verify x i) (fun a => VerifyEff A i f r (.done a)) (fun a => VerifyEff A i f r (.done a))
      (fun f' r' => VerifyEff A i f r .cut f' r') f r := by
  unfold verify
  wps
  all_goals try exact .bad _ (bad_sw (by decide))
  · exact .logout (by simp_all)
  · exact .query (by assumption) (by simp_all)
  · next h1 _ _ _ h2 =>
    apply wp_onPin Pin.getRetries_wp
    · rintro n p q ⟨h, hp, hq⟩
      subst hp hq
      rw [set_get_F, set_get_R]
      cases h with
      | empty => exact wp_throw (.queryNo 0 (by simpa using h2) (by omega))
      | io => exact wp_throw (.bad _ bad_io)
      | some p c => exact wp_throw (.queryNo _ (by simpa using h2) (by have := c.toNat_lt; omega))
    · rintro p q ⟨h, hp, hq⟩
      subst hp
      rw [set_get_F]
      exact .cut h _
  · next h1 h2 h3 h4 h5 =>
    have hl : i.c.data.length = 8 := by simpa [Apdu.Capdu.lc] using h5
    refine wp_mono (check_wp .pin hx (by omega)) ?_ ?_ ?_
    · intro _ f' r' h
      exact wp_bind (wp_mod (wp_pure (.right _ _ (by simp_all) (by simp_all) hl h)))
    · intro e f' r' h
      exact .chk _ _ _ (by simp_all) (by simp_all) hl h
    · rintro f' r' ⟨rfl, h⟩
      exact .cut h _

/-- The outcomes of presenting a secret and then replacing one. -/
inductive VtuEff (A : Fault → Prop) (w w' : Which) (data : Bytes) (f : Flash) (r : Ram) :
    Option Reply → Flash → Ram → Prop
  | chk (e : Reply) (f' : Flash) (r' : Ram) (h : ChkEff A w data f r (some e) f' r') :
      VtuEff A w w' data f r (some e) f' r'
  | updIo (f1 : Flash) (r1 : Ram) (h : ChkEff A w data f r none f1 r1) (hi : Pin.Io A ((partF w').get f1))
      (p : Pin.Flash) (hp : p = (partF w').get f1 ∨ p = some (Pin.withData ((partF w').get f1) ((data.drop 8).take 8))) :
      VtuEff A w w' data f r (some ioErr) ((partF w').set p f1) ((partR w').set ⟨false⟩ r1)
  | ok (f1 : Flash) (r1 : Ram) (h : ChkEff A w data f r none f1 r1) (q : Pin.PinFile) (d : UInt8)
      (hq : (partF w').get f1 = some q) (hd : q.dflt = some d) :
      VtuEff A w w' data f r none
        ((partF w').set (some { q with data := (data.drop 8).take 8, ctr := some d }) f1) ((partR w').set ⟨false⟩ r1)

theorem chk_pinOnly {w : Which} {data : Bytes} {o : Option Reply} {f' : Flash} {r' : Ram}
    (h : ChkEff A w data f r o f' r') : PinOnly f f' := by
  cases h
  all_goals first | exact PinOnly.rfl' | exact PinOnly.rfl'.set

theorem vtu_pinOnly {w w' : Which} {data : Bytes} {o : Option Reply} {f' : Flash} {r' : Ram}
    (h : VtuEff A w w' data f r o f' r') : PinOnly f f' := by
  cases h with
  | chk e _ _ h => exact chk_pinOnly h
  | updIo f1 r1 h => exact (chk_pinOnly h).set
  | ok f1 r1 h => exact (chk_pinOnly h).set

theorem vtu_wp (w w' : Which) (hx : x.Ok) (hl : 8 ≤ i.c.data.length) :
    wp A (verifyThenUpdate x i w w') (fun _ => VtuEff A w w' i.c.data f r none)
      (fun e => VtuEff A w w' i.c.data f r (some e)) (fun f' _ => PinOnly f f' ∧ A .cut ∧
        (f' = f ∨ Shows ((partF w).get f) i.c.data ∧ ∀ v, v ≠ w' → secret ((partF v).get f') = secret ((partF v).get f))) f r := by
  unfold verifyThenUpdate
  apply wp_bind
  refine wp_mono (check_wp w hx hl) ?_ ?_ ?_
  · intro _ f1 r1 h1
    apply wp_bind
    apply wp_onPin (Pin.update_wp (A := A) (cfg := pinCfg x) (l := 8))
    · intro rc p q h
      cases h with
      | length h => exact absurd len8 h
      | io h => exact wp_throw (.updIo _ _ h1 h _ (.inl rfl))
      | half hl h => exact wp_throw (.updIo _ _ h1 h _ (.inr rfl))
      | done p d hp hd => exact wp_pure (.ok _ _ h1 p d hp hd)
    · rintro p q ⟨h, _⟩
      refine ⟨(chk_pinOnly h1).set, h, .inr ?_⟩
      cases h1 with
      | right hs q d hq hd =>
        refine ⟨hs, fun v hv => ?_⟩
        cases v <;> cases w <;> cases w' <;> first | rfl | exact absurd rfl hv | simp_all [partF, secret]
  · intro e f' r' h
    exact .chk _ _ _ h
  · rintro f' r' ⟨rfl, h⟩
    exact ⟨.rfl', h, .inl rfl⟩

/-- The outcomes of CHANGE REFERENCE DATA. -/
inductive ChgEff (A : Fault → Prop) (i : In) (f : Flash) (r : Ram) : Outcome Reply → Flash → Ram → Prop
  | bad (o : Outcome Reply) (h : Bad o) : ChgEff A i f r o f r
  | cut (h : A .cut) (f' : Flash) (hf : PinOnly f f')
      (hs : f' = f ∨ ∃ w : Which, i.c.p1 = 0 ∧ (i.c.p2 = if w = .pin then 0x80 else 0x81) ∧
        Shows ((partF w).get f) i.c.data ∧ ∀ v, v ≠ w → secret ((partF v).get f') = secret ((partF v).get f)) (r' : Ram) :
      ChgEff A i f r .cut f' r'
  | fail (w : Which) (hp1 : i.c.p1 = 0) (hp2 : i.c.p2 = if w = .pin then 0x80 else 0x81) (hl : i.c.data.length = 16)
      (e : Reply) (f' : Flash) (r' : Ram) (h : VtuEff A w w i.c.data f r (some e) f' r') :
      ChgEff A i f r (.done e) f' r'
  | flagIo (w : Which) (hp1 : i.c.p1 = 0) (hp2 : i.c.p2 = if w = .pin then 0x80 else 0x81)
      (hl : i.c.data.length = 16) (f' : Flash) (r' : Ram)
      (h : VtuEff A w w i.c.data f r none f' r') (hA : A .fail) : ChgEff A i f r (.done ioErr) f' r'
  | done (w : Which) (hp1 : i.c.p1 = 0) (hp2 : i.c.p2 = if w = .pin then 0x80 else 0x81)
      (hl : i.c.data.length = 16) (f1 f' : Flash) (r' : Ram)
      (h : VtuEff A w w i.c.data f r none f1 r')
      (hf : setDflt w (if i.c.data.drop 8 = defaultOf w then 1 else 0) f1 = some f') :
      ChgEff A i f r (.done (.sw 0x9000)) f' r'

theorem setDflt_pinOnly {w : Which} {v : Byte} {f f' : Flash} (h : setDflt w v f = some f') : PinOnly f f' := by
  cases w <;> unfold setDflt at h <;> simp only at h <;> split at h <;> cases h <;> exact ⟨rfl, rfl, rfl, rfl⟩

theorem PinOnly.trans {f f' f'' : Flash} (h : PinOnly f f') (h' : PinOnly f' f'') : PinOnly f f'' :=
  ⟨h'.1.trans h.1, h'.2.trans h.2, h'.3.trans h.3, h'.4.trans h.4⟩

theorem vtu_some {w : Which} {data : Bytes} {f' : Flash} {r' : Ram}
    (h : VtuEff A w w data f r none f' r') {v : Byte} : setDflt w v f' ≠ none := by
  cases h with
  | ok f1 r1 h q d hq hd => cases w <;> simp [setDflt, partF]

theorem change_wp (hx : x.Ok) :
    wp A (changeRef x i) (fun a => ChgEff A i f r (.done a)) (fun a => ChgEff A i f r (.done a))
      (fun f' r' => ChgEff A i f r .cut f' r') f r := by
  have key : ∀ w : Which, i.c.p1 = 0 → (i.c.p2 = if w = .pin then 0x80 else 0x81) → i.c.data.length = 16 →
      wp A (verifyThenUpdate x i w w) (fun _ f' r' => wp A (do
        Cmd.wrOr (setDflt w (if i.c.data.drop 8 = defaultOf w then 1 else 0)) ioErr
        return .sw SW.ok) (fun a => ChgEff A i f r (.done a)) (fun a => ChgEff A i f r (.done a))
        (fun f' r' => ChgEff A i f r .cut f' r') f' r')
        (fun a => ChgEff A i f r (.done a)) (fun f' r' => ChgEff A i f r .cut f' r') f r := by
    intro w h1 h2 hl
    refine wp_mono (vtu_wp w w hx (by omega)) ?_ ?_ ?_
    · intro _ f' r' h
      apply wp_bind
      apply wp_wrOr
      · intro f'' hf
        exact wp_pure (.done w h1 h2 hl _ _ _ h hf)
      · exact fun hn => absurd hn (vtu_some h)
      · exact fun hA => .flagIo w h1 h2 hl _ _ h hA
      · intro hA
        refine .cut hA _ (vtu_pinOnly h) (.inr ⟨w, h1, h2, ?_⟩) _
        cases h with
        | ok _ _ h =>
          cases h with
          | right hs =>
            refine ⟨hs, fun v hv => ?_⟩
            cases v <;> cases w <;> first | rfl | exact absurd rfl hv
    · intro e f' r' h
      exact .fail w h1 h2 hl _ _ _ h
    · rintro f' r' ⟨h, hA, hs⟩
      exact .cut hA _ h (hs.imp id fun hs => ⟨w, h1, h2, hs⟩) _
  unfold changeRef
  wps
  all_goals try exact .bad _ (bad_sw (by decide))
  · next h1 h2 h3 => exact key .pin (by simp_all) (by simp_all) (by simpa [Apdu.Capdu.lc] using h3)
  · next h1 h2 h2' h3 => exact key .puk (by simp_all) (by simp_all) (by simpa [Apdu.Capdu.lc] using h3)

/-- The outcomes of RESET RETRY COUNTER. -/
inductive RrcEff (A : Fault → Prop) (i : In) (f : Flash) (r : Ram) : Outcome Reply → Flash → Ram → Prop
  | bad (o : Outcome Reply) (h : Bad o) : RrcEff A i f r o f r
  | cut (h : A .cut) (f' : Flash) (hf : PinOnly f f') (hs : f' = f ∨ i.c.p1 = 0 ∧ i.c.p2 = 0x80 ∧
        Shows f.puk i.c.data ∧ secret f'.puk = secret f.puk)
      (r' : Ram) : RrcEff A i f r .cut f' r'
  | fail (hp1 : i.c.p1 = 0) (hp2 : i.c.p2 = 0x80) (hl : i.c.data.length = 16)
      (e : Reply) (f' : Flash) (r' : Ram) (h : VtuEff A .puk .pin i.c.data f r (some e) f' r') :
      RrcEff A i f r (.done e) f' r'
  | done (hp1 : i.c.p1 = 0) (hp2 : i.c.p2 = 0x80) (hl : i.c.data.length = 16)
      (f' : Flash) (r' : Ram) (h : VtuEff A .puk .pin i.c.data f r none f' r') :
      RrcEff A i f r (.done (.sw 0x9000)) f' r'

theorem rrc_wp (hx : x.Ok) :
    wp A (resetRetry x i) (fun a => RrcEff A i f r (.done a)) (fun a => RrcEff A i f r (.done a))
      (fun f' r' => RrcEff A i f r .cut f' r') f r := by
  unfold resetRetry
  wps
  all_goals try exact .bad _ (bad_sw (by decide))
  next h1 h2 h3 =>
  have hl : i.c.data.length = 16 := by simpa [Apdu.Capdu.lc] using h3
  refine wp_mono (vtu_wp .puk .pin hx (by omega)) ?_ ?_ ?_
  · intro _ f' r' h
    exact wp_pure (.done (by simp_all) (by simp_all) hl _ _ h)
  · intro e f' r' h
    exact .fail (by simp_all) (by simp_all) hl _ _ _ h
  · rintro f' r' ⟨h, hA, hs⟩
    exact .cut hA _ h (hs.imp id fun hs => ⟨by simp_all, by simp_all, hs.1, hs.2 .puk (by decide)⟩) _

end Verif.Piv
