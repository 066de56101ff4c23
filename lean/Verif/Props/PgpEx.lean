import Verif.Props.PgpOk
/-
Concrete OpenPGP histories: cases that meet the hypotheses of the theorems C35 to C40, and counterexamples.
-/
namespace Verif.Pgp.Ex
open Verif.Pgp Verif.Spec.Pgp Cmd

def cr : KeyFile.Crypto where
  priv := fun _ => 32
  pub := fun _ => 10
  sig := fun _ => 64
  imp := fun _ => ⟨fun _ => true, fun _ => true, List.reverse, fun _ => true⟩
  pubOf := fun _ _ => [7]
  swap := List.reverse
  sign := fun _ _ d => some (0x55 :: d)
  rsaPrivate := fun _ d => some d
  ansi := fun _ d => d
  ecdh := fun _ _ d => some d
  tdes := fun _ d => some d

def x : Ext := ⟨2, cr, fun _ d => .ok d⟩
theorem xOk : x.Ok := ⟨by decide, by decide⟩

def mat : Key.KeyMat := ⟨0, 0, [1], [1], [2], [3], [], [], []⟩

/-- A command; the user touches the device if `present`. -/
def inp (ins p1 p2 : Byte) (data : Bytes) (present : Bool := false) (t : Nat := 0) : In :=
  ⟨⟨0, ins, p1, p2, data, 256⟩, [], none, [], 0, fun _ => 0, fun _ => some mat, false, present, t, t, []⟩
def cmd (ins p1 p2 : Byte) (data : Bytes) (present : Bool := false) (t : Nat := 0) : Op :=
  .apdu (inp ins p1 p2 data present t)

def fresh : Flash := ⟨none, fun _ => none, fun _ => none, none, none, none⟩
def outs (f : Flash) (h : List (Op × Env)) : List Out := ((run x ⟨f, none⟩ [] h).2.map (·.2.2)).reverse
def good : List Op → List (Op × Env) := List.map (·, Env.good)
abbrev after (f : Flash) (h : List (Op × Env)) : St := (run x ⟨f, none⟩ [] h).1
abbrev logOf (f : Flash) (h : List (Op × Env)) : List Entry := (run x ⟨f, none⟩ [] h).2

def pin1 : Bytes := [0x31, 0x32, 0x33, 0x34, 0x35, 0x36]
def pin3 : Bytes := pin1 ++ [0x37, 0x38]
def generate : Op := cmd 0x47 0x80 0 [0xB6, 0]
def generateDec : Op := cmd 0x47 0x80 0 [0xB8, 0]
def signIn (present : Bool := false) (t : Nat := 0) : In := inp 0x2A 0x9E 0x9A [9] present t
def sign : Op := .apdu signIn
def decIn : In := inp 0x2A 0x80 0x86 (0 :: List.replicate 10 5)
def verify81 : Op := cmd 0x20 0 0x81 pin1
def verify82 : Op := cmd 0x20 0 0x82 pin1
def verify3 : Op := cmd 0x20 0 0x83 pin3
def ctrGet : Op := cmd 0xCA 0 0x7A []
def ok : Out := .reply (.sw 0x9000)
def sw (n : Nat) : Out := .reply (.sw n)
def signature : Out := .reply (.resp [0x55, 9] 0x9000)
def pubKey : Out := .reply (.resp [0x7F, 0x49, 0x82, 0, 20, 0x81, 0x82, 0, 10, 7, 0x82, 4, 1] 0x9000)

/-! ### C35 -/

/-- Each verification allows one signature. -/
example : outs fresh (good [.boot, generate, sign, verify82, sign, verify81, sign, sign, verify81, .deselect, sign]) =
    [ok, pubKey, sw 0x6982, ok, sw 0x6982, ok, signature, sw 0x6982, ok, .none, sw 0x6982] := by decide +kernel

/-- The hypotheses of C35 hold for the first signature. -/
example : May81 (logOf fresh (good [.boot, generate, verify81])) :=
  C35_sign_needs_pw1 xOk fresh (good [.boot, generate, verify81]) signIn Env.good ⟨rfl, rfl, rfl⟩
    ⟨[0x55, 9], 0x9000, by decide +kernel, .inl rfl⟩

/-- With the status byte 01 (PUT DATA C4) one verification allows several. -/
def multi : Op := cmd 0xDA 0 0xC4 [1]
example : outs fresh (good [.boot, generate, verify3, multi, verify81, sign, sign, ctrGet]) =
    [ok, pubKey, ok, ok, ok, signature, signature, .reply (.resp [0x7A, 5, 0x93, 3, 0, 0, 2] 0x9000)] := by decide +kernel

theorem good_all {A : Fault → Prop} (hA : A .ok) {l : List Op} : ∀ e ∈ good l, e.2.all A := by
  intro e he
  simp only [good, List.mem_map] at he
  obtain ⟨_, _, rfl⟩ := he
  exact fun _ => hA

theorem allGood {A : Fault → Prop} (hA : A .ok) : Env.good.all A := fun _ => hA

/-- A card with a key. -/
def card : Flash := { factory with keys := fun k => some ⟨mat, some ⟨.rsa2048, 1, if k = .dec then 2 else 1, 0, 0⟩, none, none⟩ }
def on : St := ⟨card, some Ram.init⟩

/-- `C35_exactly_one` applies to it. -/
example : (run x on [] [(verify81, Env.good), (sign, Env.good), (sign, Env.good)]).2.map (·.2.2) =
    [.reply (.sw 0x6982), .reply (.resp [0x55, 9] 0x9000), .reply (.sw 0x9000)] :=
  C35_exactly_one xOk on Ram.init (inp 0x20 0 0x81 pin1) signIn signIn _ _ _ (allGood rfl) (allGood rfl) (allGood rfl) rfl
    ⟨_, rfl, rfl⟩ ⟨rfl, rfl, rfl, rfl⟩ ⟨pin1, some 3, some 3⟩ 3 3 rfl rfl (by decide) rfl (by decide) rfl
    ⟨rfl, rfl, rfl, rfl⟩ ⟨rfl, rfl, rfl, rfl⟩ _ (0, 0, 0) [0x55, 9] rfl rfl rfl
    ⟨_, _, rfl, rfl, by decide, by decide, fun h => by simp at h, .inl ⟨rfl, rfl, by decide⟩, rfl⟩

/-- A signature leaves the card with status 6900 when the counter cannot be written, so the property speaks of data and
not of 9000. -/
def failAt (n : Nat) : Env := fun k => if k = n then .fail else .ok
example : (step x ⟨card, some { Ram.init with m81 := true }⟩ sign (failAt 6)).2 = .reply (.resp [0x55, 9] 0x6900) := by
  decide +kernel

/-! ### C36 -/

example : outs fresh (good [.boot, generateDec, .apdu decIn, verify81, .apdu decIn, verify82, .apdu decIn, .apdu decIn]) =
    [ok, pubKey, sw 0x6982, ok, sw 0x6982, ok, .reply (.resp (List.replicate 10 5) 0x9000),
     .reply (.resp (List.replicate 10 5) 0x9000)] := by decide +kernel

example : May82 (logOf fresh (good [.boot, generateDec, verify82])) :=
  C36_use_needs_pw1 xOk fresh (good [.boot, generateDec, verify82]) decIn Env.good (.inl ⟨rfl, rfl, rfl⟩)
    ⟨List.replicate 10 5, 0x9000, by decide +kernel, .inl rfl⟩

/-! ### C69 -/

example : ∃ p m, card.keys .sig = some p ∧ p.info = some m ∧ x.cr.sign m.type p.mat [9] = some [0x55, 9] := by
  obtain ⟨p, m, h1, h2, _, _, h3, _⟩ := C69_right_key xOk ⟨card, some { Ram.init with m81 := true }⟩ signIn Env.good [0x55, 9]
    0x9000 (by decide +kernel) (.inl rfl) (.inl ⟨rfl, rfl, rfl⟩)
  have h1' : some _ = some p := h1
  injection h1' with h1'
  subst h1'
  have h2' : some _ = some m := h2
  injection h2' with h2'
  subst h2'
  exact ⟨_, _, rfl, rfl, h3 (by decide)⟩

/-! ### C37 -/

def putName : In := inp 0xDA 0 0x5B [0x41]

/-- Without PW3 refused, with PW3 accepted. -/
example : outs fresh (good [.boot, .apdu putName, verify81, .apdu putName, verify3, .apdu putName]) =
    [ok, sw 0x6982, ok, sw 0x6982, ok, ok] := by decide +kernel

theorem noPw3 : ¬ Pw3Shown (logOf fresh (good [.boot, verify81])) := by
  rintro ⟨h1, h2, h3⟩
  rcases h1 with ⟨i, e, h⟩ | ⟨h1, h2, h3⟩
  · injection e with e; subst e; exact absurd h.2.1 (by decide)
  · exact h2 (.inr (.inl rfl))

example : (step x (after fresh (good [.boot, verify81])) (.apdu putName) Env.good).1.flash =
    (after fresh (good [.boot, verify81])).flash :=
  (C37_put_and_import_partial xOk fresh (good [.boot, verify81]) putName Env.good (.inl rfl) noPw3).1

/-- C37 is wrong for the generation of keys: after power-up, without any PIN, GENERATE ASYMMETRIC KEY PAIR replaces the
signature key. -/
theorem C37_generate_refuted :
    ∃ (i : In) (f : Flash), i.c.ins = 0x47 ∧ Ok (step x (run x ⟨f, none⟩ [] [(.boot, Env.good)]).1 (.apdu i) Env.good).2 ∧
      ¬ Pw3Shown (run x ⟨f, none⟩ [] [(.boot, Env.good)]).2 ∧
      ((step x (run x ⟨f, none⟩ [] [(.boot, Env.good)]).1 (.apdu i) Env.good).1.flash.keys .sig).map (·.mat) ≠
        ((run x ⟨f, none⟩ [] [(.boot, Env.good)]).1.flash.keys .sig).map (·.mat) := by
  refine ⟨inp 0x47 0x80 0 [0xB6, 0], { card with keys := fun k => (card.keys k).map fun p => { p with mat := { mat with p := [99] } } },
    rfl, ⟨[0x7F, 0x49, 0x82, 0, 20, 0x81, 0x82, 0, 10, 7, 0x82, 4, 1], by decide +kernel⟩, ?_, by decide +kernel⟩
  rintro ⟨h1, h2, h3⟩
  exact h2 (.inr (.inl rfl))

/-! ### C38 -/

/-- The policy of the signature key is made permanent; it cannot be switched off again. -/
def uif (v : Byte) : Op := cmd 0xDA 0 0xD6 [v, 0x20]
def getUif : Op := cmd 0xCA 0 0xD6 []
example : outs fresh (good [.boot, generate, verify3, uif 2, uif 0, .deselect, .boot, verify81, sign,
      verify81, .apdu (signIn true 5)]) =
    [ok, pubKey, ok, ok, sw 0x6985, .none, ok, ok, sw 0x6600, ok, signature] := by decide +kernel

def permCard : Flash := { factory with keys := fun k => some ⟨mat, some ⟨.rsa2048, 1, if k = .dec then 2 else 1, 0, 4⟩, none, none⟩ }
example : touchOf (run x ⟨permCard, none⟩ [] (good [.boot, verify3, uif 0, generate])).1.flash .sig = some permanent :=
  C38_permanent_stays xOk ⟨permCard, none⟩ .sig (good [.boot, verify3, uif 0, generate])
    (fun e he h => good_all (A := cutsOnly) (by intro h; cases h) e he) rfl (by
      intro e he
      simp only [good, List.map_cons, List.map_nil, run, List.mem_cons, List.not_mem_nil, or_false] at he
      rcases he with rfl | rfl | rfl | rfl
      · rintro (⟨⟨i, e, h⟩, _⟩ | h | h)
        · simp only [generate, cmd, Op.apdu.injEq] at e; subst e; exact absurd h (by decide)
        · cases h
        · cases h.1
      · rintro (⟨⟨i, e, h⟩, _⟩ | h | h)
        · simp only [uif, cmd, Op.apdu.injEq] at e; subst e; exact absurd h (by decide)
        · cases h
        · cases h.1
      · rintro (⟨⟨i, e, h⟩, _⟩ | h | h)
        · simp only [verify3, cmd, Op.apdu.injEq] at e; subst e; exact absurd h (by decide)
        · cases h
        · cases h.1
      · rintro (⟨⟨i, e, h⟩, _⟩ | h | h)
        · cases e
        · cases h
        · cases h.2)

/-- Touch is cached for the time of the cache: the second signature needs no touch, a third, too late, does. -/
def cache (v : Byte) : Op := cmd 0xDA 1 2 [v]
example : outs permCard (good [.boot, verify3, cache 3, multi, verify81, .apdu (signIn true 5), .apdu (signIn false 2000),
      .apdu (signIn false 3005)]) =
    [ok, ok, ok, ok, ok, signature, signature, sw 0x6600] := by decide +kernel

example : (signIn false 2000).nfc = true ∨ (signIn false 2000).present = true ∨
    ∃ t0, ∃ c : Byte, TouchedAt t0 (logOf permCard (good [.boot, verify3, cache 3, multi, verify81, .apdu (signIn true 5)])) ∧
      t0 < 2000 ∧ 2000 - t0 < c.toNat * 1000 ∧
      ∃ r, (after permCard (good [.boot, verify3, cache 3, multi, verify81, .apdu (signIn true 5)])).ram = some r ∧
        r.cache = c :=
  C38_touch_needed xOk permCard (good [.boot, verify3, cache 3, multi, verify81, .apdu (signIn true 5)]) (signIn false 2000)
    Env.good permanent (by decide +kernel) (.inr rfl) (.inl ⟨rfl, rfl, rfl⟩) (by decide)
    ⟨[0x55, 9], 0x9000, by decide +kernel, .inl rfl⟩

/-- A storage error while the device starts installs the applet anew, which is why C38 excludes it. -/
theorem C38_boot_error_witness :
    touchOf permCard .sig = some permanent ∧
    touchOf (run x ⟨permCard, none⟩ [] [(.boot, failAt 0)]).1.flash .sig = some 0 := by decide +kernel

/-! ### C39 -/

example : ∃ n, counter (after fresh (good [.boot, generate, verify81, sign])).flash = some n ∧ n = 1 := by
  exact ⟨1, by decide +kernel, rfl⟩

example : ∃ n, counter (run x on [] (good [verify81, sign, verify81, sign])).1.flash = some n ∧
    Counts 0 (run x on [] (good [verify81, sign, verify81, sign])).2 n :=
  C39_counter_counts xOk on 0 _ (fun e he h => good_all (A := cutsOnly) (by intro h; cases h) e he) rfl

example : (step x on (.apdu (inp 0xCA 0 0x7A [])) Env.good).2 = .reply (.resp [0x7A, 5, 0x93, 3, 0, 0, 0] 0x9000) :=
  (C39_counter_reported on Ram.init (inp 0xCA 0 0x7A []) Env.good (allGood rfl) rfl ⟨_, rfl, rfl⟩ rfl rfl rfl rfl rfl _ 0 0 0
    rfl rfl (fun k => by cases k <;> simp [metaOf, on, card])).1

/-- The counter wraps around after 16777215. -/
example : ctrVal (incr (255, 255, 255)) = 0 ∧ ctrVal (incr (0, 255, 255)) = 65536 := by decide

/-! ### C40 -/

def terminate : Op := cmd 0xE6 0 0 []
def activate : Op := cmd 0x44 0 0 []
def select : Op := cmd 0xA4 4 0 [0xD2, 0x76, 0, 1, 0x24, 1]

example : outs fresh (good [.boot, terminate, activate, verify3, terminate, verify3, ctrGet, select, .boot, ctrGet, activate, ctrGet]) =
    [ok, sw 0x6982, sw 0x6985, ok, ok, sw 0x6285, sw 0x6285, ok, ok, sw 0x6285, ok,
     .reply (.resp [0x7A, 5, 0x93, 3, 0, 0, 0] 0x9000)] := by decide +kernel

/-- Terminated. -/
def dead : Flash := { card with data := card.data.map fun d => { d with term := some 1 } }
example : Terminated (run x ⟨dead, none⟩ [] (good [.boot])).1.flash ∧
    (step x (run x ⟨dead, none⟩ [] (good [.boot])).1 (.apdu signIn) Env.good).1.flash =
      (run x ⟨dead, none⟩ [] (good [.boot])).1.flash ∧
    Closed (step x (run x ⟨dead, none⟩ [] (good [.boot])).1 (.apdu signIn) Env.good).2 :=
  C40_terminated_is_closed xOk ⟨dead, none⟩ (good [.boot])
    (fun e he h => good_all (A := cutsOnly) (by intro h; cases h) e he) ⟨_, rfl, rfl⟩ (by
      intro e he
      simp only [good, List.map_cons, List.map_nil, run, List.mem_cons, List.not_mem_nil, or_false] at he
      subst he
      rintro ⟨⟨i, e, h⟩ | h, _⟩
      · cases e
      · cases h) signIn Env.good (by decide) (by decide)

/-- A power cut in the middle of ACTIVATE leaves the applet terminated. -/
def cutAt (n : Nat) : Env := fun k => if k = n then .cut else .ok
example : Terminated (run x ⟨dead, none⟩ [] [(.boot, Env.good), (activate, cutAt 12)]).1.flash :=
  ⟨_, rfl, by decide +kernel⟩

example : (step x (run x ⟨dead, none⟩ [] (good [.boot])).1 activate Env.good).1.flash = factory :=
  (C40_activate_installs xOk _ (inp 0x44 0 0 []) Env.good rfl).1 ⟨[], by decide +kernel⟩

example : (False ∨ False) ∨ (IsIns terminate 0xE6 ∧ Ok (step x (after card (good [.boot, verify3])) terminate Env.good).2 ∧
    (Pw3Shown (logOf card (good [.boot, verify3])) ∨ Blocked (after card (good [.boot, verify3])).flash.pw3)) := by
  rcases C40_terminate_needs_pw3 xOk card (good [.boot, verify3]) terminate Env.good
    ⟨_, rfl, by decide +kernel⟩ ⟨_, rfl, by decide +kernel⟩ with h | h
  · rcases h with h | h <;> cases h
  · exact .inr h

/-- A power cut during the very first start leaves an applet that answers every command, ACTIVATE too, with 6900. -/
theorem C40_first_start_witness :
    outs fresh [(.boot, cutAt 2), (.boot, Env.good), (select, Env.good), (activate, Env.good), (ctrGet, Env.good)] =
      [.cut, ok, sw 0x6900, sw 0x6900, sw 0x6900] := by decide +kernel

end Verif.Pgp.Ex
