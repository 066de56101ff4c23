import Verif.Props.PgpMore
import Verif.Props.PgpAdmin
import Verif.Props.PgpEx
/-
C91: the PINs of the OpenPGP applet change only for those who know them.
-/
set_option linter.unusedSimpArgs false
namespace Verif.Pgp
open Cmd Verif.Spec.Pgp Verif.KeyFile

variable {A : Fault → Prop} {x : Ext} {i : In} {f f' : Flash} {r r' : Ram} {o : Outcome Reply}

/-- The shortest PIN of a kind. -/
def lo' : Which → Nat
  | .pw1 => 6
  | _ => 8

/-- The sizes stored PINs have. -/
def SizeOk (w : Which) (s : Option Bytes) : Prop :=
  ∃ d, s = some d ∧ (w = .rc ∧ d = [] ∨ lo' w ≤ d.length ∧ d.length ≤ 64)

theorem lenOk_iff' {w : Which} {l : UInt8} : Pin.lenOk (pinCfg x w) l ↔ lo' w ≤ l.toNat ∧ l.toNat ≤ 64 := by
  unfold Pin.lenOk
  rw [UInt8.le_iff_toNat_le, UInt8.le_iff_toNat_le]
  cases w <;> exact Iff.rfl

abbrev sec (w : Which) (f : Flash) : Option Bytes := secretOf ((partF w).get f)

theorem sec_set {w v : Which} {p : Pin.Flash} : sec v ((partF w).set p f) = if v = w then secretOf p else sec v f := by
  cases w <;> cases v <;> rfl

theorem ver_secret {cfg : Pin.Cfg} {b : Bytes} {l : UInt8} {g p : Pin.Flash} {a : Pin.Rc × Option UInt8} {q : Pin.Ram}
    (h : Pin.VerEff A cfg b l g a p q) : secretOf p = secretOf g := by
  cases h with
  | wrong q c hp => subst hp; rfl
  | right q c d hp => subst hp; rfl
  | _ => rfl

theorem first_secret {w : Which} {size : Option Nat} {e : Option Reply} (h : FirstEff A x i w size f r e f' r') (v : Which) :
    sec v f' = sec v f := by
  cases h with
  | mk rc ctr p q h =>
    rw [sec_set]
    split
    · next e => subst e; exact ver_secret h
    · rfl

theorem rest_secret {w : Which} {n : Nat} (h : RestEff A x i w (some n) f r o f' r') :
    (∀ v, v ≠ w → sec v f' = sec v f) ∧
    (sec w f' = sec w f ∨ n ≤ i.c.lc ∧ SizeOk w (sec w f')) := by
  have size : Pin.lenOk (pinCfg x w) (newLen i (some n)) →
      SizeOk w (some ((newPin i (some n)).take (newLen i (some n)).toNat)) := by
    intro hl
    obtain ⟨h1, h2⟩ := lenOk_iff'.1 hl
    refine ⟨_, rfl, .inr ?_⟩
    have : (newLen i (some n)).toNat ≤ (newPin i (some n)).length := by
      simp [newLen, newPin, Apdu.Capdu.lc]
      exact Nat.mod_le _ _
    rw [List.length_take, Nat.min_eq_left this]
    exact ⟨h1, h2⟩
  cases h with
  | ub h => cases h
  | short => exact ⟨fun _ _ => rfl, .inl rfl⟩
  | upd hn rc p q hu =>
    refine ⟨fun v hv => by rw [sec_set, if_neg hv], ?_⟩
    rw [sec_set, if_pos rfl]
    cases hu with
    | length => exact .inl rfl
    | io => exact .inl rfl
    | half hl => exact .inr ⟨hn n rfl, size hl⟩
    | done p d hp hd hl => exact .inr ⟨hn n rfl, size hl⟩
  | cut hc f' r' hn hf =>
    rcases hf with rfl | ⟨hl, rfl⟩
    · exact ⟨fun _ _ => rfl, .inl rfl⟩
    · refine ⟨fun v hv => by rw [sec_set, if_neg hv], ?_⟩
      rw [sec_set, if_pos rfl]
      exact .inr ⟨hn n rfl, size hl⟩

/-- Without errors of the storage the new PIN is written only if the data start with the old one. -/
theorem ch_secret {w w' : Which} (hA : ¬ A .fail) (hs : SizeOk w (sec w f)) (hz : sec w f ≠ some [])
    (h : ChEff A x i w w' f r o f' r') :
    (∀ v, v ≠ w' → sec v f' = sec v f) ∧
    (sec w' f' = sec w' f ∨ StartsWith ((partF w).get f) i.c.data ∧ SizeOk w' (sec w' f')) := by
  cases h with
  | cut => exact ⟨fun _ _ => rfl, .inl rfl⟩
  | stop size _ e f' r' h => exact ⟨fun v _ => first_secret h v, .inl (first_secret h _)⟩
  | upd size hsz f1 r1 h o f' r' h' =>
    have hsz := hsz.resolve_right fun h => hA h.1
    obtain ⟨d, hd, hl⟩ := hs
    have hl : lo' w ≤ d.length ∧ d.length ≤ 64 := hl.resolve_left fun h => hz (by rw [hd, h.2])
    obtain ⟨q, hq, rfl⟩ := Option.map_eq_some_iff.mp hd
    rw [hq, Option.map_some] at hsz
    subst hsz
    obtain ⟨h1, h2⟩ := rest_secret h'
    refine ⟨fun v hv => (h1 v hv).trans (first_secret h v), ?_⟩
    rcases h2 with h2 | ⟨hn, h2⟩
    · exact .inl (h2.trans (first_secret h _))
    · refine .inr ⟨?_, h2⟩
      generalize hst : (none : Option Reply) = st at h
      cases h with
      | mk rc ctr p q' hv =>
        cases hv with
        | length hno =>
          refine absurd (lenOk_iff'.2 ?_) hno
          simp only [candLen, UInt8.toNat_ofNat']
          rw [Nat.min_eq_right hn]
          have : q.data.length % 2 ^ 8 = q.data.length := Nat.mod_eq_of_lt (by omega)
          rw [this]
          exact hl
        | io => simp [stop] at hst
        | blocked => simp [stop] at hst
        | wrong => simp [stop] at hst; split at hst <;> cases hst
        | right p c d hp hc hz' hl' hm hd => exact startsWith_of (w := w) hp hc hz' hm
        | rightIo => simp [stop] at hst

/-- What a command shows before it changes a PIN. -/
def Cause (i : In) (f : Flash) (r : Ram) : Which → Prop
  | .pw1 => (i.c.ins = 0x24 ∧ i.c.p2 = 0x81 ∧ StartsWith f.pw1 i.c.data) ∨
      (i.c.ins = 0x2C ∧ i.c.p1 = 0 ∧ StartsWith f.rc i.c.data ∧ secretOf f.rc ≠ some []) ∨
      (i.c.ins = 0x2C ∧ i.c.p1 = 2 ∧ r.pw3.validated = true)
  | .pw3 => i.c.ins = 0x24 ∧ i.c.p2 = 0x83 ∧ StartsWith f.pw3 i.c.data
  | .rc => i.c.ins = 0xDA ∧ i.c.p1 = 0 ∧ i.c.p2 = 0xD3 ∧ r.pw3.validated = true

/-- The sizes of the PINs of an active applet. -/
def Sizes (f : Flash) : Prop := ∀ t, termOf f = some t → t ≠ 1 → ∀ w, SizeOk w (sec w f)

theorem tag_d3 (h : tagOf i.c = 0xD3) : i.c.p1 = 0 ∧ i.c.p2 = 0xD3 := by
  have h1 := i.c.p1.toNat_lt
  have h2 := i.c.p2.toNat_lt
  unfold tagOf at h
  have : i.c.p1.toNat = 0 ∧ i.c.p2.toNat = 0xD3 := by omega
  exact ⟨UInt8.toNat_inj.1 this.1, UInt8.toNat_inj.1 this.2⟩

theorem keep_sec (h : Keep f f') (w : Which) : sec w f' = sec w f := by
  cases w
  · exact congrArg secretOf h.pw1
  · exact congrArg secretOf h.pw3
  · exact congrArg secretOf h.rc

theorem key_sec {k : K} (h : KeyEff A k f o f') (w : Which) : sec w f' = sec w f := by
  cases h with
  | none => rfl
  | fail _ _ _ _ hk => exact keep_sec hk w
  | done m hm mat org hd d =>
    have : sec w (ctrReset k (newKey f k mat { m with origin := org })) = sec w (newKey f k mat { m with origin := org }) := by
      unfold ctrReset; split <;> cases w <;> rfl
    rw [this]
    exact keep_sec (newKey_keep hm mat org) w

theorem sign_sec {s : Bool} (h : SignEff A x i s f r o f' r') (w : Which) : sec w f' = sec w f := by
  cases h with
  | noPin => rfl
  | bad => rfl
  | given hp p m h d hd r' hu hm h1 f' sw hf =>
    rcases hf with ⟨_, rfl, _⟩ | ⟨_, rfl, _⟩ | ⟨_, _, dt, n, _, _, rfl⟩ <;> cases w <;> rfl

theorem inst_sizes (h : InstEff A f r o f' r') (hs : Sizes f) : Sizes f' := by
  have mid : ∀ {f'}, Mid f f' → Sizes f' := by
    intro f' hm t ht h1 w
    rcases hm.pins with h | ⟨e1, e2, e3⟩
    · rw [h] at ht; cases ht; exact absurd rfl h1
    · have : sec w f' = sec w f := by
        cases w
        · exact congrArg secretOf e1
        · exact congrArg secretOf e2
        · exact congrArg secretOf e3
      rw [this]
      rcases hm.term with e | e
      · exact hs t (e ▸ ht) h1 w
      · rw [e] at ht; cases ht; exact absurd rfl h1
  cases h with
  | done =>
    intro t _ _ w
    cases w
    · exact ⟨_, rfl, .inr ⟨by decide, by decide⟩⟩
    · exact ⟨_, rfl, .inr ⟨by decide, by decide⟩⟩
    · exact ⟨_, rfl, .inl ⟨rfl, rfl⟩⟩
  | fail h f' hm => exact mid hm
  | cut h f' hm => exact mid hm

/-- Every command keeps a PIN, or shows what it has to, or installs the applet. -/
theorem cmd_secret (h : CEff A x i f r o f' r') (hs : ∀ w, SizeOk w (sec w f))
    (hi : i.c.ins ≠ 0x44) (hA : i.c.ins = 0x24 ∨ i.c.ins = 0x2C → ¬ A .fail) (w : Which) :
    sec w f' = sec w f ∨ Cause i f r w ∧ SizeOk w (sec w f') := by
  have emp : ∀ {w}, w ≠ .rc → sec w f ≠ some [] := by
    intro w hw e
    obtain ⟨d, hd, h⟩ := hs w
    rw [e] at hd; cases hd
    rcases h with h | h
    · exact hw h.1
    · have : lo' w ≤ 0 := h.1
      cases w <;> simp [lo'] at this
  cases h with
  | read => exact .inl rfl
  | cut => exact .inl rfl
  | verify h o f' r' he =>
    left
    cases he with
    | chk _ _ _ rc ctr p q h =>
      rw [sec_set]
      split
      · next e => subst e; exact ver_secret h
      · rfl
    | _ => rfl
  | change h o f' r' he =>
    cases he with
    | param => exact .inl rfl
    | pw1 hp1 hp2 o f' r' he =>
      obtain ⟨h1, h2⟩ := ch_secret (hA (.inl h)) (hs _) (emp (by decide)) he
      by_cases e : w = .pw1
      · subst e
        exact h2.imp id fun h2 => ⟨.inl ⟨h, hp2, h2.1⟩, h2.2⟩
      · exact .inl (h1 w e)
    | pw3 hp1 hp2 o f' r' he =>
      obtain ⟨h1, h2⟩ := ch_secret (hA (.inl h)) (hs _) (emp (by decide)) he
      by_cases e : w = .pw3
      · subst e
        exact h2.imp id fun h2 => ⟨⟨h, hp2, h2.1⟩, h2.2⟩
      · exact .inl (h1 w e)
  | rrc h o f' r' he =>
    cases he with
    | bad => exact .inl rfl
    | cut => exact .inl rfl
    | rc hp1 hp2 hz o f' r' he =>
      have hz := hz.resolve_right (hA (.inr h))
      obtain ⟨h1, h2⟩ := ch_secret (hA (.inr h)) (hs _) hz he
      by_cases e : w = .pw1
      · subst e
        exact h2.imp id fun h2 => ⟨.inr (.inl ⟨h, hp1, h2.1, hz⟩), h2.2⟩
      · exact .inl (h1 w e)
    | admin hp1 hp2 hv o f' r' he =>
      obtain ⟨h1, h2⟩ := rest_secret he
      by_cases e : w = .pw1
      · subst e
        exact h2.imp id fun h2 => ⟨.inr (.inr ⟨h, hp1, hv⟩), h2.2⟩
      · exact .inl (h1 w e)
  | put h o f' r' he =>
    cases he with
    | no => exact .inl rfl
    | yes hv o f' r' he =>
      have hk : PutKeep i f f' := by
        cases he with
        | done _ _ _ h => exact h.1
        | cut _ _ _ h => exact h
      rcases hk with hk | ⟨ht, hb, hr⟩
      · exact .inl (keep_sec hk w)
      · cases w with
        | pw1 => exact .inl (congrArg secretOf hb.pw1)
        | pw3 => exact .inl (congrArg secretOf hb.pw3)
        | rc =>
          rcases hr with hr | ⟨q, hq, hl⟩
          · exact .inl (congrArg secretOf hr)
          · refine .inr ⟨⟨h, (tag_d3 ht).1, (tag_d3 ht).2, hv⟩, q.data, congrArg secretOf hq, ?_⟩
            exact hl.imp (fun h => ⟨rfl, h⟩) id
  | imp h o f' r' he =>
    left
    cases he with
    | no => rfl
    | yes h o f' r' h' =>
      cases h' with
      | none => rfl
      | key k' hk o f' r' hr h => exact key_sec h w
  | gen h o f' r' he =>
    left
    cases he with
    | none => rfl
    | read => rfl
    | key hp k' hk o f' r' hr h => exact key_sec h w
  | sign h o f' r' he => exact .inl (sign_sec he w)
  | auth h o f' r' he => exact .inl (sign_sec he w)
  | dec h o f' r' he => left; cases he <;> rfl
  | term h o f' r' he => left; cases he <;> cases w <;> rfl
  | act h => exact absurd h hi

theorem peff_secret (h : PEff A x i f r o f' r') (hs : Sizes f) (hA : i.c.ins = 0x24 ∨ i.c.ins = 0x2C → ¬ A .fail) :
    ((∀ w, sec w f' = sec w f ∨ Cause i f r w) ∨ i.c.ins = 0x44 ∧ ¬ Active f) ∧ Sizes f' := by
  have same : ((∀ w, sec w f = sec w f ∨ Cause i f r w) ∨ i.c.ins = 0x44 ∧ ¬ Active f) ∧ Sizes f :=
    ⟨.inl fun w => .inl rfl, hs⟩
  cases h with
  | cla => exact same
  | gate => exact same
  | cut => exact same
  | cmd hc r0 hr t ht hg o f' r' h =>
    by_cases h4 : i.c.ins = 0x44
    · cases h with
      | read => exact same
      | cut => exact same
      | act _ ha o f' r' he =>
        exact ⟨.inr ⟨h4, fun e => ha (active_iff.1 e)⟩, inst_sizes he hs⟩
      | verify e => rw [h4] at e; exact absurd e (by decide)
      | change e => rw [h4] at e; exact absurd e (by decide)
      | rrc e => rw [h4] at e; exact absurd e (by decide)
      | put e => rw [h4] at e; exact absurd e (by decide)
      | imp e => rw [h4] at e; exact absurd e (by decide)
      | gen e => rw [h4] at e; exact absurd e (by decide)
      | sign e => have e := e.1; rw [h4] at e; exact absurd e (by decide)
      | auth e => have e : i.c.ins = 0x88 := e; rw [h4] at e; exact absurd e (by decide)
      | dec e => have e := e.1; rw [h4] at e; exact absurd e (by decide)
      | term e => rw [h4] at e; exact absurd e (by decide)
    · by_cases h1 : t = 1
      · have ha := (hg h1).resolve_left h4
        cases h with
        | read => exact same
        | cut => exact same
        | act e => exact absurd e h4
        | verify e => rw [ha] at e; exact absurd e (by decide)
        | change e => rw [ha] at e; exact absurd e (by decide)
        | rrc e => rw [ha] at e; exact absurd e (by decide)
        | put e => rw [ha] at e; exact absurd e (by decide)
        | imp e => rw [ha] at e; exact absurd e (by decide)
        | gen e => rw [ha] at e; exact absurd e (by decide)
        | sign e => have e := e.1; rw [ha] at e; exact absurd e (by decide)
        | auth e => have e : i.c.ins = 0x88 := e; rw [ha] at e; exact absurd e (by decide)
        | dec e => have e := e.1; rw [ha] at e; exact absurd e (by decide)
        | term e => rw [ha] at e; exact absurd e (by decide)
      · have hall := hs t ht h1
        have key := fun w => cmd_secret h hall h4 hA w
        refine ⟨.inl fun w => (key w).imp id fun hc => ?_, fun _ _ _ w => ?_⟩
        · have hc := hc.1
          cases w
          · unfold Cause at hc ⊢; rw [← hr.same.pw3]; exact hc
          · exact hc
          · unfold Cause at hc ⊢; rw [← hr.same.pw3]; exact hc
        · rcases key w with h | h
          · rw [h]; exact hall w
          · exact h.2

/-- What holds after every operation. -/
theorem secret_step (hx : x.Ok) {s : St} {op : Op} {env : Env} (hop : ReadsPins op env) (hs : Sizes s.flash) :
    ((∀ w, sec w (step x s op env).1.flash = sec w s.flash ∨ ∃ i r, op = .apdu i ∧ s.ram = some r ∧ Cause i s.flash r w) ∨
      Reinstalls s.flash op) ∧ Sizes (step x s op env).1.flash := by
  have h : SEff (fun y => y = .fail → ¬ (op = .boot ∨ IsIns op 0x24 ∨ IsIns op 0x2C)) x s op (step x s op env).1 (step x s op env).2 := by
    apply step_eff hx
    intro n e hc
    exact hop hc n e
  generalize (step x s op env).1 = s' at h ⊢
  generalize (step x s op env).2 = out at h ⊢
  cases h with
  | off op h ho => exact ⟨.inl fun w => .inl rfl, hs⟩
  | deselect r h => exact ⟨.inl fun w => .inl rfl, hs⟩
  | boot o f' r1 h =>
    cases h with
    | nop => exact ⟨.inl fun w => .inl rfl, hs⟩
    | cut => exact ⟨.inl fun w => .inl rfl, hs⟩
    | inst h o f' r' he =>
      have h := h.resolve_right fun h => h rfl (.inl rfl)
      exact ⟨.inr (.inr (.inr ⟨rfl, h⟩)), inst_sizes he hs⟩
  | factory r hr o f' r1 h => exact ⟨.inr (.inr (.inl rfl)), inst_sizes h hs⟩
  | apdu i r hr o f' r1 h =>
    have hA : i.c.ins = 0x24 ∨ i.c.ins = 0x2C → ¬ (Fault.fail = Fault.fail → ¬ (Op.apdu i = .boot ∨ IsIns (.apdu i) 0x24 ∨ IsIns (.apdu i) 0x2C)) := by
      intro h h'
      exact h' rfl (.inr (h.imp (fun e => ⟨i, rfl, e⟩) (fun e => ⟨i, rfl, e⟩)))
    obtain ⟨h1, h2⟩ := peff_secret h hs hA
    refine ⟨?_, h2⟩
    rcases h1 with h1 | ⟨h1, h3⟩
    · exact .inl fun w => (h1 w).imp id fun h => ⟨i, r, rfl, hr, h⟩
    · exact .inr (.inl ⟨⟨i, rfl, h1⟩, h3⟩)

/-- **C91 (the PINs change only for those who know them).** On every card, after every history of commands, restarts,
resets and power cuts (also in the middle of an operation), and with errors of the storage anywhere but while the device
starts and while CHANGE REFERENCE DATA or RESET RETRY COUNTER runs: an operation after which another PW1, PW3 or
resetting code is stored is one of those of `MayChangePw1`, `MayChangePw3` and `MayChangeRc`. What is missing is the case
of a storage error in the commands that were left out: there the claim is false (`C91_read_error_refuted`). -/
theorem C91_pins_change_partial (hx : x.Ok) (h : List (Op × Env)) (hh : ∀ e ∈ h, ReadsPins e.1 e.2) (op : Op) (env : Env)
    (ho : ReadsPins op env) :
    let s := (run x ⟨blank, none⟩ [] h).1
    let log := (run x ⟨blank, none⟩ [] h).2
    let f := s.flash
    let f' := (step x s op env).1.flash
    (secretOf f'.pw1 ≠ secretOf f.pw1 → MayChangePw1 log f op) ∧
    (secretOf f'.pw3 ≠ secretOf f.pw3 → MayChangePw3 f op) ∧
    (secretOf f'.rc ≠ secretOf f.rc → MayChangeRc log f op) := by
  intro s log f f'
  have hs : Sizes s.flash :=
    run_inv (x := x) (I := fun _ s => Sizes s.flash) (P := ReadsPins) (fun s log op env hp hi => (secret_step hx hp hi).2)
      h ⟨blank, none⟩ [] hh (fun t ht => by cases ht)
  have hp : ∀ {r : Ram}, s.ram = some r → r.pw3.validated = true → Pw3Shown log := fun hr hv => pw3_shown hx blank h hr hv
  obtain ⟨h1 | h1, _⟩ := secret_step hx ho hs
  · refine ⟨fun n => ?_, fun n => ?_, fun n => ?_⟩
    · obtain ⟨i, r, rfl, hr, hc⟩ := (h1 .pw1).resolve_left n
      rcases hc with hc | hc | ⟨h2, h3, h4⟩
      · exact .inl ⟨i, rfl, hc⟩
      · exact .inr (.inl ⟨i, rfl, hc⟩)
      · exact .inr (.inr (.inl ⟨i, rfl, h2, h3, hp hr h4⟩))
    · obtain ⟨i, r, rfl, hr, hc⟩ := (h1 .pw3).resolve_left n
      exact .inl ⟨i, rfl, hc⟩
    · obtain ⟨i, r, rfl, hr, h2, h3, h4, h5⟩ := (h1 .rc).resolve_left n
      exact .inl ⟨i, rfl, h2, h3, h4, hp hr h5⟩
  · exact ⟨fun _ => .inr (.inr (.inr h1)), fun _ => .inr h1, fun _ => .inr h1⟩

end Verif.Pgp

namespace Verif.Pgp.Ex
open Verif.Pgp Verif.Spec.Pgp Cmd

def new1 : Bytes := [1, 2, 3, 4, 5, 6]
def new3 : Bytes := [9, 8, 7, 6, 5, 4, 3, 2]
def rcode : Bytes := [0x61, 0x62, 0x63, 0x64, 0x65, 0x66, 0x67, 0x68]
def pw1s (f : Flash) (h : List Op) : Option Bytes := secretOf (run x ⟨f, none⟩ [] (good h)).1.flash.pw1
def pw3s (f : Flash) (h : List Op) : Option Bytes := secretOf (run x ⟨f, none⟩ [] (good h)).1.flash.pw3

/-- PW1 with the old one, with the resetting code, with PW3; wrong secrets change nothing. -/
example : pw1s blank [.boot, cmd 0x24 0 0x81 (pin1 ++ new1)] = some new1 ∧
    pw1s blank [.boot, cmd 0x24 0 0x81 (new1 ++ new1)] = some pin1 ∧
    pw1s blank [.boot, verify3, cmd 0xDA 0 0xD3 rcode, cmd 0x2C 0 0x81 (rcode ++ new1)] = some new1 ∧
    pw1s blank [.boot, verify3, cmd 0xDA 0 0xD3 rcode, cmd 0x2C 0 0x81 (new3 ++ new1)] = some pin1 ∧
    pw1s blank [.boot, verify3, cmd 0x2C 2 0x81 new1] = some new1 ∧
    pw1s blank [.boot, cmd 0x2C 2 0x81 new1] = some pin1 ∧
    pw3s blank [.boot, cmd 0x24 0 0x83 (pin3 ++ new3)] = some new3 ∧
    pw3s blank [.boot, cmd 0x24 0 0x83 (pin1 ++ new3)] = some pin3 := by decide +kernel

/-- `C91_pins_change_partial` applies to these: here it says that the data started with PW1. -/
example : MayChangePw1 (logOf blank (good [.boot])) (after blank (good [.boot])).flash (cmd 0x24 0 0x81 (pin1 ++ new1)) :=
  (C91_pins_change_partial xOk (good [.boot]) (fun e he _ => good_all (A := cutsOnly) (by simp [cutsOnly]) e he)
    (cmd 0x24 0 0x81 (pin1 ++ new1)) Env.good (fun _ => allGood (by simp [cutsOnly]))).1 (by decide +kernel)

/-- CHANGE REFERENCE DATA for PW1 with five bytes, none of them of PW1. -/
def bypass : In := { inp 0x24 0 0x81 [1, 2, 3, 4, 5] with junk := 1, before := some 5 }
/-- The same for PW3. -/
def bypass3 : In := { inp 0x24 0 0x83 [1, 2, 3, 4, 5, 6, 7] with junk := 1, before := some 7 }

/-- **C91 is false of the code when the storage fails.** `pin_get_size` returns -1, `pin_verify` refuses the length
without having set the counter, and CHANGE REFERENCE DATA, which does not look at that answer, stores the byte in front
of the data and the data as the new PIN - of the administrator, too - and answers 9000. -/
theorem C91_read_error_refuted :
    let s := after blank (good [.boot])
    let t := (step x s (.apdu bypass) (failAt 1))
    let t3 := (step x s (.apdu bypass3) (failAt 1))
    t.2 = .reply (.sw 0x9000) ∧ secretOf t.1.flash.pw1 = some [5, 1, 2, 3, 4, 5] ∧
    ¬ MayChangePw1 (logOf blank (good [.boot])) s.flash (.apdu bypass) ∧
    t3.2 = .reply (.sw 0x9000) ∧ secretOf t3.1.flash.pw3 = some [7, 1, 2, 3, 4, 5, 6, 7] ∧
    ¬ MayChangePw3 s.flash (.apdu bypass3) := by
  have act : Active (after blank (good [.boot])).flash := active_iff.2 (by decide +kernel)
  have e1 : (after blank (good [.boot])).flash.pw1 = some ⟨pin1, some 3, some 3⟩ := by decide +kernel
  have e3 : (after blank (good [.boot])).flash.pw3 = some ⟨pin3, some 3, some 3⟩ := by decide +kernel
  refine ⟨by decide +kernel, by decide +kernel, ?_, by decide +kernel, by decide +kernel, ?_⟩
  · rintro (⟨i, hi, _, _, q, n, hq, _, _, hp⟩ | ⟨i, hi, h, _⟩ | ⟨i, hi, h, _⟩ | ⟨_, h⟩ | h | ⟨h, _⟩)
    · cases hi
      rw [e1] at hq; cases hq
      revert hp; decide
    · cases hi; revert h; decide
    · cases hi; revert h; decide
    · exact h act
    · cases h
    · cases h
  · rintro (⟨i, hi, _, _, q, n, hq, _, _, hp⟩ | ⟨_, h⟩ | h | ⟨h, _⟩)
    · cases hi
      rw [e3] at hq; cases hq
      revert hp; decide
    · exact h act
    · cases h
    · cases h

end Verif.Pgp.Ex
