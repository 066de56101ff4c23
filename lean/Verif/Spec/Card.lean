import Verif.Model.Card
/-
What the properties of the whole card talk about. Logs are newest first; an entry holds the state before an operation,
the operation and what was observed.
-/
namespace Verif.Spec.Card
open Verif.Card
open Apdu (Capdu Rapdu Applet)

/-! ### What the commands of the admin applet do to the other applets -/

/-- RESET OPENPGP and FACTORY RESET. -/
def pgpByAdmin (c : Capdu) (op : Pgp.Op) : Prop := op = .factory ∧ (c.ins = 0x03 ∨ c.ins = 0x50)

/-- RESET PIV and FACTORY RESET. -/
def pivByAdmin (c : Capdu) (op : Piv.Op) : Prop := (∃ rnd, op = .factory rnd) ∧ (c.ins = 0x04 ∨ c.ins = 0x50)

/-- RESET OATH, RESET PASS, FACTORY RESET, READ PASS CONFIG and WRITE PASS CONFIG. -/
def oathByAdmin (c : Capdu) (op : Oath.Op) : Prop :=
  (∃ rnd, op = .install true rnd) ∧ (c.ins = 0x05 ∨ c.ins = 0x50) ∨
  op = .passInstall true ∧ (c.ins = 0x13 ∨ c.ins = 0x50) ∨
  op = .passRead ∧ c.ins = 0x43 ∨ op = .passWrite c ∧ c.ins = 0x44

/-- RESET CTAP, FACTORY RESET, WRITE FIDO PRIVATE KEY, WRITE FIDO CERTIFICATE and WRITE SM2 CONFIG. -/
def ctapByAdmin (x : Ext) (c : Capdu) (op : Ctap.Op) : Prop :=
  (∃ i, op = .adminReset i) ∧ (c.ins = 0x09 ∨ c.ins = 0x50) ∨
  op = .installKey c.data ∧ c.ins = 0x01 ∧ c.lc = 32 ∨ op = .installCert c.data ∧ c.ins = 0x02 ∧ c.lc ≤ 1152 ∨
  op = .writeSm2 (x.sm2 c.data) ∧ c.ins = 0x12 ∧ c.lc = 12

/-- RESET NDEF, FACTORY RESET and TOGGLE NDEF READ ONLY. -/
def ndefByAdmin (c : Capdu) (op : Ndef.Op) : Prop :=
  op = .reset ∧ (c.ins = 0x07 ∨ c.ins = 0x50) ∨ op = .toggle c ∧ c.ins = 0x08

/-! ### What an applet sees of the card -/

/-- Operations with what was observed, from entries with states. -/
def obs {σ ο ω : Type} (l : List (σ × ο × ω)) : List (ο × ω) := l.map (·.2)

/-- How an applet takes part in the card: `σ` are its states, `ο` the operations of the applet alone, `ω` what is
observed of them. -/
structure Face (σ ο ω : Type) where
  me : Applet
  /-- its part of flash and RAM -/
  st : Flash → Ram → σ
  /-- its part of flash alone -/
  same : Flash → σ → Prop
  /-- what it sees when another applet is selected or the reader switches the power of the card -/
  deselect : List (ο × ω)
  /-- what it sees of a command the dispatcher hands to it; the answer is `none` if power was cut -/
  cmd : In → Ram → Capdu → Option Reply → List (ο × ω) → Prop
  /-- what a command to the admin applet may do to it -/
  admin : Capdu → ο → Prop
  /-- what it sees when the device boots; `true` if power is cut before the end -/
  boot : Bool → List (ο × ω) → Prop
  /-- what it sees of operations that do not go through the dispatcher -/
  direct : Op → Host → List (ο × ω) → Prop

/-- The operations an applet sees in one step of the card, oldest first: none but
* those of a command that the dispatcher hands to it, or that the admin applet carries out on it;
* `deselect` when the applet is switched or the reader switches the power, and those of a boot;
* the messages of its own that do not go through the dispatcher. -/
def Does {σ ο ω : Type} (F : Face σ ο ω) (s : St) (op : Op) (o : Out) (l : List (σ × ο × ω)) : Prop :=
  match op, s.ram with
  | .boot _, _ => F.boot (match o.host with | .cut => true | _ => false) (obs l)
  | _, none => l = []
  | .apdu _ i, some (r, _) =>
    match o.call with
    | none => l = []
    | some k =>
      ∃ d t, l = d ++ t ∧ obs d = (if k.switch then F.deselect else []) ∧ (∀ e ∈ d, e.1 = F.st s.flash r) ∧
        (∀ e, t.head? = some e → e.1 = F.st s.flash (if k.switch then powerOff r else r)) ∧
        if k.to = F.me then F.cmd i (if k.switch then powerOff r else r) k.cmd k.ans (obs t)
        else if k.to = .admin then ∀ e ∈ t, F.admin k.cmd e.2.1
        else t = []
  | .power, some (r, _) => obs l = F.deselect ∧ ∀ e ∈ l, e.1 = F.st s.flash r
  | op, some (r, _) => F.direct op o.host (obs l) ∧ ∀ e, l.head? = some e → e.1 = F.st s.flash r

/-- The log of the applet is the log of the card, as the applet sees it. -/
inductive Split {σ ο ω : Type} (F : Face σ ο ω) : List (St × Op × Out) → List (σ × ο × ω) → Prop where
  | nil : Split F [] []
  | cons {s : St} {op : Op} {o : Out} {L : List (St × Op × Out)} {c l : List (σ × ο × ω)} :
      Split F L l → Does F s op o c → Split F ((s, op, o) :: L) (c.reverse ++ l)

/-- The answer of an applet, `cut` if there is none. -/
def answer {ω : Type} (reply : Reply → ω) (cut : ω) : Option Reply → ω
  | none => cut
  | some a => reply a

/-- At most one operation, and exactly one unless power is cut. -/
def once {ο ω : Type} (P : ο → Prop) (cut : Bool) (l : List (ο × ω)) : Prop :=
  l = [] ∧ cut = true ∨ ∃ op out, l = [(op, out)] ∧ P op

/-- OpenPGP. -/
def pgpFace : Face Pgp.St Pgp.Op Pgp.Out where
  me := .openpgp
  st f r := ⟨f.others.pgp, some r.others.pgp⟩
  same f s := s.flash = f.others.pgp
  deselect := [(.deselect, .none)]
  cmd i _ c a l := l = [(.apdu { i.pgp with c := c }, answer .reply .cut a)]
  admin := pgpByAdmin
  boot := once (· = .boot)
  direct _ _ l := l = []

/-- PIV. -/
def pivFace : Face Piv.St Piv.Op Piv.Out where
  me := .piv
  st f r := ⟨f.others.piv, some r.others.piv⟩
  same f s := s.flash = f.others.piv
  deselect := [(.deselect, .none)]
  cmd i _ c a l := l = [(.apdu { i.piv with c := c }, answer .reply .cut a)]
  admin := pivByAdmin
  boot := once fun op => ∃ rnd, op = .boot rnd
  direct _ _ l := l = []

/-- NDEF. -/
def ndefFace : Face Ndef.St Ndef.Op Ndef.Out where
  me := .ndef
  st f r := ⟨f.ndef, some r.ndef⟩
  same f s := s.flash = f.ndef
  deselect := [(.deselect, .none)]
  cmd i _ c a l := l = [(.apdu { i.ndef with c := c }, answer .reply .cut a)]
  admin := ndefByAdmin
  boot := once (· = .boot)
  direct _ _ l := l = []

/-- OATH and the passwords of the keyboard. -/
def oathFace : Face Oath.St Oath.Op Oath.Out where
  me := .oath
  st f r := ⟨f.others.oath, r.others.oath⟩
  same f s := s.flash = f.others.oath
  deselect := [(.powerOff, .none)]
  cmd i _ c a l := l = [(.apdu { i.oath with c := c }, answer .reply .cut a)]
  admin := oathByAdmin
  boot _ l := ∃ t, l = (.boot, .none) :: t ∧ t.length ≤ 2 ∧
    ∀ e ∈ t, (∃ rnd, e.1 = .install false rnd) ∨ e.1 = .passInstall false
  direct op h l := match op with
    | .touch long => ∃ o, l = [(.touch long, o)] ∧ (o = .cut ∧ h = .cut ∨ o ≠ .cut ∧ h = .typed o)
    | _ => l = []

/-- FIDO. -/
def ctapFace (x : Ext) : Face Ctap.St Ctap.Op Ctap.Out where
  me := .fido
  st f r := ⟨f.others.ctap, r.others.ctap⟩
  same f s := s.flash = f.others.ctap
  deselect := []
  cmd i r c a l := match fidoReq x r.others.ctap c with
    | .plain p => l = [] ∧ a = some p
    | .cbor q => ∃ o, l = [(.cbor i.ctap q, o)] ∧ (o = .cut ∧ a = none ∨ o ≠ .cut ∧ a = some (cborReply x o))
    | .u2f q => ∃ o, l = [(.u2f i.ctap q, o)] ∧ (o = .cut ∧ a = none ∨ o ≠ .cut ∧ a = some (u2fReply x o))
  admin := ctapByAdmin x
  boot := once fun op => ∃ i, op = .powerOn i
  direct op h l := match op with
    | .cbor q i => ∃ o, l = [(.cbor i q, o)] ∧ (o = .cut ∧ h = .cut ∨ o ≠ .cut ∧ h = .ctap o)
    | .u2f q i => ∃ o, l = [(.u2f i q, o)] ∧ (o = .cut ∧ h = .cut ∨ o ≠ .cut ∧ h = .ctap o)
    | _ => l = []

/-- The state of the applet alone is its part of the card: flash always, RAM while the device is on. -/
def Shares {σ ο ω : Type} (F : Face σ ο ω) (s : St) (a : σ) : Prop :=
  F.same s.flash a ∧ ∀ r d, s.ram = some (r, d) → a = F.st s.flash r

/-- A history of an applet alone, with the state before every operation; newest first. -/
def runG {σ ο ω : Type} (step : σ → ο → Env → σ × ω) (s : σ) (log : List (σ × ο × ω)) :
    List (ο × Env) → σ × List (σ × ο × ω)
  | [] => (s, log)
  | (op, env) :: h => runG step (step s op env).1 ((s, op, (step s op env).2) :: log) h

/-- A rest of a fault schedule. -/
def Rest (env env' : Env) : Prop := ∃ k, env' = fun n => env (n + k)

/-! ### Sessions of the whole card -/

/-- `P` happened, and `Q` has not happened since. -/
def Since {ε : Type} (P Q : ε → Prop) : List ε → Prop
  | [] => False
  | e :: old => P e ∨ Since P Q old ∧ ¬ Q e

/-- The device is on, and the dispatcher handed a command of the host to applet `a`. -/
def Handed (a : Applet) (e : St × Op × Out) (i : In) (k : Call) : Prop :=
  e.1.ram ≠ none ∧ (∃ c, e.2.1 = .apdu c i) ∧ e.2.2.call = some k ∧ k.to = a

/-- The host leaves applet `a`: it selects another applet, lets the reader switch the power of the card, or the device is
restarted or loses power; or another applet gets a command. -/
def Leaves (a : Applet) (e : St × Op × Out) : Prop :=
  e.2.1 = .power ∨ (∃ r, e.2.1 = .boot r) ∨ e.2.2.host = .cut ∨
  ∃ k, e.2.2.call = some k ∧ (k.switch = true ∨ k.to ≠ a)

end Verif.Spec.Card
