import Verif.Props.CardUse
import Verif.Props.CardAdm
import Verif.Props.PgpEx
import Verif.Props.PivEx
import Verif.Spec.CtapToy
import Verif.Lemmas.OathEx
/-
A concrete card: cases that meet the hypotheses of the theorems C92 to C94.
-/
namespace Verif.Card.Ex
open Verif.Card Spec.Card
open Apdu (Capdu Rapdu Applet)

deriving instance DecidableEq for Call

def x : Ext where
  neq := 2
  pgp := Pgp.Ex.x
  piv := Piv.Ex.x
  oath := Oath.exX
  ctap := Ctap.Toy.ext
  decode _ _ := .info
  encode _ := [0]
  sm2 _ := ⟨false, 0⟩
  sm2Bytes _ := []

def rnd : Rnd := ⟨Piv.Ex.rnd, List.replicate 8 0, Ctap.Toy.env 0⟩
/-- What the surroundings contribute; the user is present if `present`. -/
def inp (present : Bool := false) : In :=
  ⟨{ Pgp.Ex.inp 0 0 0 [] with present := present }, { Piv.Ex.inp 0 0 0 [] with present := present }, Oath.exCmd 0 0 0 [], Ctap.Toy.env 0, Admin.exI 0 0 [] 0, ⟨⟨0, 0, 0, 0, [], 0⟩, fun _ => 0⟩, rnd⟩
def cmd (ins p1 p2 : Byte) (data : Bytes) : Op := .apdu ⟨0, ins, p1, p2, data, 256⟩ inp
def select (a : Applet) : Op := cmd 0xA4 4 0 a.aid

/-- An empty flash. -/
def blank : Flash := ⟨none, none, none, ⟨none, none⟩, ⟨Pgp.Ex.fresh, Piv.Ex.fresh, ⟨none, none⟩, ⟨none, none, none, none, none⟩⟩⟩
def good : List Op → List (Op × Env) := List.map (·, Env.good)
abbrev after (h : List Op) : St := (run x ⟨blank, none⟩ [] (good h)).1
abbrev logOf (h : List Op) : List (St × Op × Out) := (run x ⟨blank, none⟩ [] (good h)).2

/-- What the host sees. -/
def host (o : Out) : Option (Bytes × Nat) := match o.host with
  | .reply r => some (r.data, r.sw.toNat)
  | _ => none
def outs (h : List Op) : List (Option (Bytes × Nat)) := ((logOf h).map (host ·.2.2)).reverse

def pin : Bytes := [0x31, 0x32, 0x33, 0x34, 0x35, 0x36]
def pgpStart : List Op := [.boot rnd, select .openpgp, cmd 0x47 0x80 0 [0xB6, 0], cmd 0x20 0 0x81 pin]
def sign : Op := cmd 0x2A 0x9E 0x9A [9]
def verifyAdm : Op := cmd 0x20 0 0 pin
def config : Op := cmd 0x40 1 0 []

/-- OpenPGP: a verification allows one signature and is lost with the selection of another applet and with the power of
the card. -/
example : outs (pgpStart ++ [sign, sign, cmd 0x20 0 0x81 pin, select .piv, select .openpgp, sign, cmd 0x20 0 0x81 pin,
      .power, sign]) =
    [none, some ([], 0x9000), some ([0x7F, 0x49, 0x82, 0, 20, 0x81, 0x82, 0, 10, 7, 0x82, 4, 1], 0x9000), some ([], 0x9000),
     some ([0x55, 9], 0x9000), some ([], 0x6982), some ([], 0x9000),
     some ([0x61, 17, 0x4F, 6, 0, 0, 0x10, 0, 1, 0, 0x79, 7, 0x4F, 5, 0xA0, 0, 0, 3, 8], 0x9000), some ([], 0x9000),
     some ([], 0x6982), some ([], 0x9000), none, some ([], 0x6982)] := by decide +kernel

/-- Admin: the PIN is asked for, and is forgotten with the selection of another applet. -/
example : outs [.boot rnd, select .admin, config, verifyAdm, config, select .oath, select .admin, config] =
    [none, some ([], 0x9000), some ([], 0x6982), some ([], 0x9000), some ([], 0x9000),
     some ([0x79, 3, 6, 0, 0, 0x71, 8, 0, 0, 0, 0, 0, 0, 0, 0], 0x9000), some ([], 0x9000), some ([], 0x6982)] := by
  decide +kernel

/-- What a command is to the applet that gets it. -/
theorem handed {s : St} {c : Capdu} {i : In} {k : Call} (hon : s.ram.isSome = true)
    (h : (step x s (.apdu c i) Env.good).2.call = some k) :
    Handed k.to (s, .apdu c i, (step x s (.apdu c i) Env.good).2) i k :=
  ⟨fun h => (by rw [h] at hon; cases hon), ⟨c, rfl⟩, h, rfl⟩

/-! ### C92 -/

/-- The hypotheses of C92 hold for a card without power. -/
example : Shares pgpFace ⟨blank, none⟩ ⟨blank.others.pgp, none⟩ ∧ Shares pivFace ⟨blank, none⟩ ⟨blank.others.piv, none⟩ ∧
    Shares ndefFace ⟨blank, none⟩ ⟨blank.ndef, none⟩ ∧
    (∀ r, Shares oathFace ⟨blank, none⟩ ⟨blank.others.oath, r⟩) ∧
    ∀ r, Shares (ctapFace x) ⟨blank, none⟩ ⟨blank.others.ctap, r⟩ :=
  ⟨⟨rfl, fun _ _ h => (by cases h)⟩, ⟨rfl, fun _ _ h => (by cases h)⟩, ⟨rfl, fun _ _ h => (by cases h)⟩,
    fun _ => ⟨rfl, fun _ _ h => (by cases h)⟩, fun _ => ⟨rfl, fun _ _ h => (by cases h)⟩⟩

/-! ### C93 -/

/-- The hypotheses of C93 hold for the first signature. -/
example : Since (Pw1Verified 0x81) (fun e => Pw1Dropped 0x81 e ∨ SignedOnce e) (logOf pgpStart) :=
  C93_openpgp_sign (x := x) Pgp.Ex.xOk blank (good pgpStart) sign Env.good _ _
    ⟨_, _, handed (by decide +kernel)
      (k := ⟨false, .openpgp, ⟨0, 0x2A, 0x9E, 0x9A, [9], 256⟩, some (.resp [0x55, 9] 0x9000)⟩) (by decide +kernel), rfl, rfl⟩
    ⟨rfl, rfl, rfl⟩ ⟨_, _, rfl, .inl rfl⟩

/-- A card with a key in slot 9A of PIV, for which the PIN is asked each time. -/
def pivCard : Flash := { blank with others := { blank.others with piv := Piv.Ex.withKey 3 1 } }
def pivSign : Op := cmd 0x87 0x11 0x9A Piv.Ex.signData
def pivStart : List Op := [.boot rnd, select .piv, cmd 0x20 0 0x80 [0x31, 0x32, 0x33, 0x34, 0x35, 0x36, 0xFF, 0xFF]]

/-- PIV: the PIN allows one signature. -/
example : ((run x ⟨pivCard, none⟩ [] (good (pivStart ++ [pivSign, pivSign]))).2.map fun e => (host e.2.2).map (·.2)) =
    [some 0x6982, some 0x9000, some 0x9000, some 0x9000, none] := by decide +kernel

/-- The hypotheses of C93 hold for the first signature of PIV. -/
example : ∃ k m, Piv.refOf 0x9A = some k ∧
    Piv.metaOf k (run x ⟨pivCard, none⟩ [] (good pivStart)).1.flash.others.piv = some m ∧
    PinSatisfied (run x ⟨pivCard, none⟩ [] (good pivStart)).2 m := by
  have e : (step x (run x ⟨pivCard, none⟩ [] (good pivStart)).1 pivSign Env.good).2.call.map
      (fun k => (k.to, k.cmd, k.ans.map fun | .resp _ sw => sw | .ub _ => 0)) =
      some (.piv, ⟨0, 0x87, 0x11, 0x9A, Piv.Ex.signData, 256⟩, some 0x9000) := by decide +kernel
  obtain ⟨k, hk, h⟩ := Option.map_eq_some_iff.mp e
  obtain ⟨sw, to, c, ans⟩ := k
  dsimp only at h
  simp only [Prod.mk.injEq, Option.map_eq_some_iff] at h
  obtain ⟨rfl, hc, rep, rfl, h⟩ := h
  have on : (run x ⟨pivCard, none⟩ [] (good pivStart)).1.ram.isSome = true := by decide +kernel
  generalize hs : (run x ⟨pivCard, none⟩ [] (good pivStart)).1 = s at hk on
  have saw : PivSaw (s, pivSign, (step x s pivSign Env.good).2) { inp.piv with c := c } (answer .reply .cut (some rep)) :=
    ⟨inp, _, handed on hk, rfl, rfl⟩
  subst hs
  obtain ⟨k, m, h1, h2, h3, _⟩ := C93_piv_key (x := x) Piv.Ex.xOk pivCard (good pivStart) pivSign Env.good _ _
    saw (congrArg Capdu.ins hc)
    (fun h => absurd ((congrArg Capdu.p2 hc).symm.trans h) (by decide)) (Nat.two_pow_pos 32) (by
      cases rep with
      | ub u => cases h
      | resp d sw => cases h; exact ⟨d, rfl⟩)
  exact ⟨k, m, (congrArg Piv.refOf (congrArg Capdu.p2 hc)).symm.trans h1, h2, h3⟩

/-! ### C94 -/

/-- No VERIFY went to the admin applet. -/
def noVerify (e : St × Op × Out) : Bool := match e.2.2.call with
  | some k => !(k.to == .admin && k.cmd.ins == 0x20)
  | none => true

theorem not_since {Q : St × Op × Out → Prop} {l : List (St × Op × Out)} (h : l.all noVerify = true) :
    ¬ Since AdminVerified Q l := by
  induction l with
  | nil => exact id
  | cons e l ih =>
    rw [List.all_cons, Bool.and_eq_true] at h
    rintro (⟨i, o, ⟨j, k, ⟨_, _, hk, ht⟩, rfl, _⟩, hv, _⟩ | ⟨h1, _⟩)
    · have hi : k.cmd.ins = 0x20 := hv.1
      have := h.1
      unfold noVerify at this
      rw [hk] at this
      dsimp only at this
      rw [ht, hi] at this
      exact absurd this (by decide)
    · exact ih h.2 h1

/-- The hypotheses of the gate hold: CONFIG without VERIFY. -/
example : (step x (run x ⟨blank, none⟩ [] (good [.boot rnd, select .admin])).1 config Env.good).1.flash =
    (run x ⟨blank, none⟩ [] (good [.boot rnd, select .admin])).1.flash := by
  have h1 : AdmSaw (after [.boot rnd, select .admin], config, (step x (after [.boot rnd, select .admin]) config Env.good).2)
      { inp.adm with c := ⟨0, 0x40, 1, 0, [], 256⟩ } (.reply (.sw 0x6982)) :=
    ⟨_, _, handed (by decide +kernel) (k := ⟨false, .admin, ⟨0, 0x40, 1, 0, [], 256⟩, some (.sw 0x6982)⟩)
      (by decide +kernel), rfl, rfl⟩
  have h2 : (0x40 : Byte) ∉ Spec.Admin.openIns := by decide
  have h3 : ¬ Since AdminVerified AdminDropped (logOf [.boot rnd, select .admin]) := not_since (by decide +kernel)
  have k := C94_admin_gate (x := x) ⟨by decide, by decide⟩ blank (good [.boot rnd, select .admin]) config Env.good _ _ h1
  have k2 := k h2 h3
  exact k2.2

def admStart : List Op := [.boot rnd, select .admin, verifyAdm]
def writeSn : Op := cmd 0x30 0 0 [1, 2, 3, 4]

/-- The hypotheses of the serial number hold. -/
example : (run x (step x (after admStart) writeSn Env.good).1 [] (good [select .piv, .boot rnd])).1.flash.sn = some [1, 2, 3, 4] :=
  (C94_serial_is_final (x := x) ⟨by decide, by decide⟩ (after admStart) writeSn Env.good _
    ⟨_, _, handed (by decide +kernel) (k := ⟨false, .admin, ⟨0, 0x30, 0, 0, [1, 2, 3, 4], 256⟩, some (.sw 0x9000)⟩)
      (by decide +kernel), rfl, rfl⟩ rfl (good [select .piv, .boot rnd])
    (fun e he => by
      simp only [good, List.mem_map] at he
      obtain ⟨_, _, rfl⟩ := he
      exact fun _ => (by intro h; cases h))).2.1

/-- The hypotheses of FACTORY RESET hold: the PIN is not blocked. -/
example : (step x (after admStart) (cmd 0x50 0 0 Admin.magic) Env.good).1.flash = (after admStart).flash :=
  (C94_factory_conditions (x := x) (after admStart) (cmd 0x50 0 0 Admin.magic) Env.good _ _
    ⟨_, _, handed (by decide +kernel) (k := ⟨false, .admin, ⟨0, 0x50, 0, 0, Admin.magic, 256⟩, some (.sw 0x6985)⟩)
      (by decide +kernel), rfl, rfl⟩ rfl
    (have e : (after admStart).flash.pin = some ⟨pin, some 3, some 3⟩ := by decide +kernel
     ⟨_, _, e, rfl⟩) (fun _ => by intro h; cases h)
    (fun h => by
      have e : (after admStart).flash.pin = some ⟨pin, some 3, some 3⟩ := by decide +kernel
      obtain ⟨p, hp, h⟩ := h.2.2.1
      cases e.symm.trans hp
      rcases h with h | h <;> cases h)).1

end Verif.Card.Ex
