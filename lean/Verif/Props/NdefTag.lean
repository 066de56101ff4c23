import Verif.Spec.NdefTag
import Verif.Props.Ndef
/-
C114: the NDEF tag is a machine with four components.
-/
namespace Verif.Ndef
open Verif.Spec.NdefTag
open Verif.Cmd
open Verif.Spec.Ndef (File factoryMessage)

/-- A running device shows the tag `t`. -/
structure Shows (t : Tag) (f : Flash) (r : Ram) : Prop where
  cc : f.cc = some (capability t.ro)
  msg : ∃ d, f.ndef = some d ∧ Holds d 1024 t.msg
  ram : r.cc = capability t.ro
  sel : selOf (some r) = t.sel

theorem ccR_cap {r : Ram} {b : Bool} (h : r.cc = capability b) : ccR r = 0 := by
  unfold ccR; rw [h]; rfl

theorem ccW_cap {r : Ram} {b : Bool} (h : r.cc = capability b) : (ccW r != 0) = b := by
  unfold ccW; rw [h]; cases b <;> rfl

theorem place_offset (c : Apdu.Capdu) : place c = offset c := by unfold place offset; omega

theorem named_take {d : Bytes} {a b : Byte} (h : d.take 2 = [a, b]) :
    named d = if a = 0xE1 ∧ b = 0x03 then some .container else if a = 0x00 ∧ b = 0x01 then some .message else none := by
  unfold named
  rw [h]
  simp

theorem holds_cap (b : Bool) : Holds (capability b) 15 fun j => (capability b).getD j 0 :=
  ⟨rfl, fun _ _ => rfl⟩

variable {A : Fault → Prop}

theorem select_tag {t : Tag} {f : Flash} {r : Ram} {c : Apdu.Capdu} (h : Shows t f r) (hA : ¬ A .fail) :
    wp A (select c) (fun a f' r' => a = (t.choose c).2 ∧ Shows (t.choose c).1 f' r')
      (fun a f' r' => a = (t.choose c).2 ∧ Shows (t.choose c).1 f' r') (fun f' _ => f' = f ∧ A .cut) f r := by
  unfold select Tag.choose
  simp only [Cmd.throw_bind, Cmd.pure_bind]
  apply wp_ite
  · intro hp
    simp only [Bool.and_eq_true, beq_iff_eq] at hp
    rw [if_pos hp]
    exact wp_pure ⟨rfl, h⟩
  · intro hp
    simp only [Bool.and_eq_true, beq_iff_eq] at hp
    rw [if_neg hp]
    apply wp_ite
    · intro hq
      simp only [bne_iff_ne, ne_eq, Bool.or_eq_true] at hq
      rw [if_pos hq]
      exact wp_throw ⟨rfl, h⟩
    · intro hq
      simp only [bne_iff_ne, ne_eq, Bool.or_eq_true] at hq
      rw [if_neg hq]
      apply wp_ite
      · intro hl
        have hl : c.data.length < 2 := hl
        rw [if_pos hl]
        exact wp_throw ⟨rfl, h⟩
      · intro hl
        have hl : ¬ c.data.length < 2 := hl
        rw [if_neg hl]
        have hl : 2 ≤ c.data.length := by
          have : c.lc = c.data.length := rfl
          omega
        have e0 : c.data[0]? = some (c.data[0]'(by omega)) := by simp [show 0 < c.data.length by omega]
        have e1 : c.data[1]? = some (c.data[1]'(by omega)) := by simp [show 1 < c.data.length by omega]
        rw [rd_ok (by omega : 0 < c.data.length), rd_ok (by omega : 1 < c.data.length), named_take (take2 e0 e1)]
        simp only [Cmd.mem, Cmd.pure_bind]
        apply wp_ite
        · intro h1
          simp only [Bool.and_eq_true, beq_iff_eq] at h1
          rw [if_pos h1]
          apply wp_bind; apply wp_mod
          exact wp_pure ⟨rfl, h.cc, h.msg, h.ram, rfl⟩
        · intro h1
          simp only [Bool.and_eq_true, beq_iff_eq] at h1
          rw [if_neg h1]
          apply wp_ite
          · intro h2
            simp only [Bool.and_eq_true, beq_iff_eq] at h2
            rw [if_pos h2]
            apply wp_bind; apply wp_mod
            exact wp_pure ⟨rfl, h.cc, h.msg, h.ram, rfl⟩
          · intro h2
            simp only [Bool.and_eq_true, beq_iff_eq] at h2
            rw [if_neg h2]
            exact wp_throw ⟨rfl, h⟩

theorem read_tag {t : Tag} {f : Flash} {r : Ram} {i : In} (h : Shows t f r) (hA : ¬ A .fail) :
    wp A (readBinary i) (fun a f' r' => a = t.read i.c ∧ Shows t f' r')
      (fun a f' r' => a = t.read i.c ∧ Shows t f' r') (fun f' _ => f' = f ∧ A .cut) f r := by
  unfold readBinary Tag.read
  rw [place_offset]
  simp only [Cmd.throw_bind]
  apply wp_ite
  · intro h1
    rw [if_pos (.inl h1)]
    exact wp_throw ⟨rfl, h⟩
  · intro h1
    apply wp_ite
    · intro h2
      rw [if_pos (.inr h2)]
      exact wp_throw ⟨rfl, h⟩
    · intro h2
      rw [if_neg (c := offset i.c > 1024 ∨ i.c.le > 1024) (by rintro (a | a) <;> contradiction)]
      apply wp_bind; apply wp_get
      have hsel := h.sel
      obtain ⟨cc, sel⟩ := r
      cases sel with
      | none =>
        rw [← hsel]
        exact wp_throw ⟨rfl, h⟩
      | cc =>
        rw [← hsel]
        simp only [selOf]
        apply wp_ite
        · intro hl
          have hl : offset i.c + i.c.le > size .container := hl
          rw [if_pos hl]
          exact wp_throw ⟨rfl, h⟩
        · intro hl
          have hl : ¬ offset i.c + i.c.le > size .container := hl
          rw [if_neg hl]
          apply wp_bind
          apply wp_rdOr
          · intro d hd
            rw [h.cc] at hd
            cases hd
            exact wp_pure ⟨by rw [readInto_eq (holds_cap t.ro) (by have e : size .message = 1024 := rfl; have e' : size .container = 15 := rfl; omega)]; rfl, h⟩
          · intro hn; rw [h.cc] at hn; cases hn
          · intro hn; exact absurd hn hA
          · intro hx; exact ⟨rfl, hx⟩
      | ndef =>
        rw [← hsel]
        simp only [selOf, ccR_cap h.ram]
        apply wp_ite
        · intro hl; cases hl
        · intro _
          apply wp_ite
          · intro hl
            have hl : offset i.c + i.c.le > size .message := hl
            rw [if_pos hl]
            exact wp_throw ⟨rfl, h⟩
          · intro hl
            have hl : ¬ offset i.c + i.c.le > size .message := hl
            rw [if_neg hl]
            obtain ⟨d', hd', hm⟩ := h.msg
            apply wp_bind
            apply wp_rdOr
            · intro d hd
              rw [hd'] at hd
              cases hd
              exact wp_pure ⟨by rw [readInto_eq hm (by have e : size .message = 1024 := rfl; have e' : size .container = 15 := rfl; omega)]; rfl, h⟩
            · intro hn; rw [hd'] at hn; cases hn
            · intro hn; exact absurd hn hA
            · intro hx; exact ⟨rfl, hx⟩

theorem write_tag {t : Tag} {f : Flash} {r : Ram} {c : Apdu.Capdu} (h : Shows t f r) (hA : ¬ A .fail) :
    wp A (update c) (fun a f' r' => a = (t.write c).2 ∧ Shows (t.write c).1 f' r')
      (fun a f' r' => a = (t.write c).2 ∧ Shows (t.write c).1 f' r') (fun f' _ => f' = f ∧ A .cut) f r := by
  unfold update Tag.write
  simp only [place_offset]
  simp only [Cmd.throw_bind, ne_eq]
  apply wp_ite
  · intro h1
    rw [if_pos (.inl h1)]
    exact wp_throw ⟨rfl, h⟩
  · intro h1
    apply wp_ite
    · intro h2
      rw [if_pos (.inr h2)]
      exact wp_throw ⟨rfl, h⟩
    · intro h2
      rw [if_neg (c := offset c > 1024 ∨ c.data.length > 1024) (by rintro (a | a) <;> contradiction)]
      apply wp_bind; apply wp_get
      have hsel := h.sel
      obtain ⟨cc, sel⟩ := r
      cases sel with
      | none =>
        rw [if_pos (c := ¬ t.sel = some .message) (by rw [← hsel]; simp [selOf])]
        exact wp_throw ⟨rfl, h⟩
      | cc =>
        rw [if_pos (c := ¬ t.sel = some .message) (by rw [← hsel]; simp [selOf])]
        exact wp_throw ⟨rfl, h⟩
      | ndef =>
        rw [if_neg (c := ¬ t.sel = some .message) (by rw [← hsel]; simp [selOf])]
        simp only [ccW_cap h.ram]
        apply wp_ite
        · intro hro
          rw [if_pos hro]
          exact wp_throw ⟨rfl, h⟩
        · intro hro
          rw [if_neg hro]
          apply wp_ite
          · intro hl
            have hl : offset c + c.data.length > 1024 := hl
            rw [if_pos hl]
            exact wp_throw ⟨rfl, h⟩
          · intro hl
            have hl : ¬ offset c + c.data.length > 1024 := hl
            rw [if_neg hl]
            obtain ⟨d', hd', hm⟩ := h.msg
            apply wp_bind
            apply wp_wrOr
            · intro f' hf
              cases hf
              refine wp_pure ⟨rfl, h.cc, ⟨_, rfl, ?_⟩, h.ram, h.sel⟩
              rw [hd']
              have hl' : offset c + c.data.length ≤ 1024 := by omega
              exact holds_patch hm hl'
            · intro hn; cases hn
            · intro hn; exact absurd hn hA
            · intro hx; exact ⟨rfl, hx⟩

theorem process_tag {t : Tag} {f : Flash} {r : Ram} {i : In} (h : Shows t f r) (hA : ¬ A .fail) :
    wp A (process i) (fun a f' r' => a = (t.command i.c).2 ∧ Shows (t.command i.c).1 f' r')
      (fun a f' r' => a = (t.command i.c).2 ∧ Shows (t.command i.c).1 f' r') (fun f' _ => f' = f ∧ A .cut) f r := by
  unfold process Tag.command
  apply wp_ite
  · intro hi
    rw [if_pos (c := i.c.ins = 0xA4) (by simpa using hi)]
    exact select_tag h hA
  · intro hi
    rw [if_neg (c := i.c.ins = 0xA4) (by simpa using hi)]
    apply wp_ite
    · intro hj
      rw [if_pos (c := i.c.ins = 0xB0) (by simpa using hj)]
      exact read_tag h hA
    · intro hj
      rw [if_neg (c := i.c.ins = 0xB0) (by simpa using hj)]
      apply wp_ite
      · intro hk
        rw [if_pos (c := i.c.ins = 0xD6) (by simpa using hk)]
        exact write_tag h hA
      · intro hk
        rw [if_neg (c := i.c.ins = 0xD6) (by simpa using hk)]
        exact wp_throw ⟨rfl, h⟩

/-- A device, powered or not, shows the tag `t`. -/
structure Is (t : Tag) (s : St) : Prop where
  cc : s.flash.cc = some (capability t.ro)
  msg : ∃ d, s.flash.ndef = some d ∧ Holds d 1024 t.msg
  on : t.on = s.ram.isSome
  sel : selOf s.ram = t.sel
  ram : ∀ r, s.ram = some r → r.cc = capability t.ro

theorem Is.shows {t : Tag} {f : Flash} {r : Ram} (h : Is t ⟨f, some r⟩) : Shows t f r :=
  ⟨h.cc, h.msg, h.ram r rfl, h.sel⟩

theorem Shows.is {t : Tag} {f : Flash} {r : Ram} (h : Shows t f r) (ho : t.on = true) : Is t ⟨f, some r⟩ :=
  ⟨h.cc, h.msg, ho, h.sel, fun _ e => by cases e; exact h.ram⟩

theorem Is.off {t : Tag} {s : St} {f : Flash} (h : Is t s) (hf : f = s.flash) : Is t.off ⟨f, none⟩ := by
  subst hf
  exact ⟨h.cc, h.msg, rfl, rfl, fun _ e => by cases e⟩

theorem command_on (t : Tag) (c : Apdu.Capdu) : (t.command c).1.on = t.on := by
  unfold Tag.command
  split
  · unfold Tag.choose
    repeat' split
    all_goals rfl
  · split
    · rfl
    · split
      · unfold Tag.write
        repeat' split
        all_goals rfl
      · rfl

theorem toggle_tag {t : Tag} {f : Flash} {r : Ram} {c : Apdu.Capdu} (h : Shows t f r) (hon : t.on = true) (hA : ¬ A .fail) :
    wp A (toggleReadOnly c)
      (fun a f' r' => .reply a = (t.next (.toggle c)).2 ∧ Shows (t.next (.toggle c)).1 f' r')
      (fun a f' r' => .reply a = (t.next (.toggle c)).2 ∧ Shows (t.next (.toggle c)).1 f' r') (fun f' _ => f' = f ∧ A .cut) f r := by
  have hset : ∀ b : Bool, r.cc.set 14 (if b then 0xFF else 0x00) = capability b := by
    intro b; rw [h.ram]; rfl
  have hs : ∀ cc, selOf (some ⟨cc, r.sel⟩) = t.sel := by
    intro cc
    rw [← h.sel]
    obtain ⟨_, sel⟩ := r
    cases sel <;> rfl
  unfold toggleReadOnly
  simp only [Cmd.throw_bind, Tag.next, hon, if_true]
  apply wp_ite
  · intro hp
    rw [if_pos (c := c.p1 = 0) (by simpa using hp)]
    apply wp_bind; apply wp_mod
    apply wp_bind; apply wp_get
    apply wp_bind; apply wp_wrOr
    · intro f' hf
      cases hf
      exact wp_pure ⟨rfl, congrArg some (hset false), h.msg, hset false, hs _⟩
    · intro hn; cases hn
    · intro hn; exact absurd hn hA
    · intro hx; exact ⟨rfl, hx⟩
  · intro h0
    rw [if_neg (c := c.p1 = 0) (by simpa using h0)]
    apply wp_ite
    · intro hp
      rw [if_pos (c := c.p1 = 1) (by simpa using hp)]
      apply wp_bind; apply wp_mod
      apply wp_bind; apply wp_get
      apply wp_bind; apply wp_wrOr
      · intro f' hf
        cases hf
        exact wp_pure ⟨rfl, congrArg some (hset true), h.msg, hset true, hs _⟩
      · intro hn; cases hn
      · intro hn; exact absurd hn hA
      · intro hx; exact ⟨rfl, hx⟩
    · intro h1
      rw [if_neg (c := c.p1 = 1) (by simpa using h1)]
      exact wp_throw ⟨rfl, h⟩

theorem toggle_on (t : Tag) (c : Apdu.Capdu) : (t.next (.toggle c)).1.on = t.on := by
  simp only [Tag.next]
  repeat' split
  all_goals rfl

theorem next_off (t : Tag) (h : t.on = false) {op : Op} (ho : op ≠ .boot) : t.next op = (t, .none) := by
  cases op <;> simp_all [Tag.next]

theorem install_tag {t : Tag} {f : Flash} (hc : f.cc = some (capability t.ro))
    (hm : ∃ d, f.ndef = some d ∧ Holds d 1024 t.msg) (hA : ¬ A .fail) :
    wp A (install false) (fun a f' r' => Out.reply a = .reply (.sw 0x9000) ∧ Shows { t with on := true, sel := none } f' r')
      (fun a f' r' => Out.reply a = .reply (.sw 0x9000) ∧ Shows { t with on := true, sel := none } f' r')
      (fun f' _ => f' = f ∧ A .cut) f Ram.init := by
  obtain ⟨d, hd, hm⟩ := hm
  have hn : d ≠ [] := by intro e; rw [e] at hm; exact absurd hm.1 (by decide)
  have hl : (capability t.ro).length = 15 := rfl
  unfold install
  simp only [Bool.false_eq_true, if_false]
  apply wp_bind; apply wp_mod
  apply wp_bind
  apply wp_bind; apply wp_rdF
  · intro _
    rw [hc]
    simp only [Option.map_some, hl, bne_self_eq_false, Bool.false_eq_true, if_false]
    apply wp_bind; apply wp_rdF
    · intro _
      rw [hd]
      apply wp_pure
      have : (((some d).map List.length).getD 0 == 0) = false := by simpa using hn
      rw [this]
      simp only [Bool.false_eq_true, if_false]
      apply wp_bind; apply wp_rdOr
      · intro a ha
        rw [hc] at ha; cases ha
        apply wp_bind; apply wp_mod
        refine wp_pure ⟨rfl, hc, ⟨d, hd, hm⟩, ?_, rfl⟩
        show (capability t.ro).take 15 ++ (poweroff Ram.init).cc.drop (capability t.ro).length = _
        rw [hl, List.take_of_length_le (by omega)]
        simp [poweroff, Ram.init]
      · intro h; rw [hc] at h; cases h
      · intro h; exact absurd h hA
      · intro h; exact ⟨rfl, h⟩
    · intro h; exact absurd h hA
    · intro h; exact ⟨rfl, h⟩
  · intro h; exact absurd h hA
  · intro h; exact ⟨rfl, h⟩

theorem exec_tag {m : M Reply} {t t' : Tag} {s : St} {r : Ram} {a : Out} {env : Env} (h : Is t s)
    (ht : t'.on = true) (henv : env.all A)
    (hw : wp A m (fun b f' r' => .reply b = a ∧ Shows t' f' r') (fun b f' r' => .reply b = a ∧ Shows t' f' r')
      (fun f' _ => f' = s.flash ∧ A .cut) s.flash r) :
    ((exec m s.flash r env).2 = .cut ∧ A .cut ∧ Is t.off (exec m s.flash r env).1) ∨
    ((exec m s.flash r env).2 = a ∧ Is t' (exec m s.flash r env).1) := by
  rcases exec_of_wp (P := fun o f' r' => match o with
      | .cut => f' = s.flash ∧ A .cut
      | .done b => .reply b = a ∧ Shows t' f' r') hw henv with ⟨f', r', he, hc, hx⟩ | ⟨f', r', b, he, hb, hc⟩ <;> rw [he]
  · exact .inl ⟨rfl, hx, h.off hc⟩
  · exact .inr ⟨hb, hc.is ht⟩

/-- One operation, with the faults `A`. -/
theorem step_tag (t : Tag) (s : St) (h : Is t s) (op : Op) (env : Env) (hA : ¬ A .fail) (henv : env.all A)
    (hr : op = .reset → env.all noFault) :
    ((step s op env).2 = .cut ∧ A .cut ∧ Is t.off (step s op env).1) ∨
    ((step s op env).2 = (t.next op).2 ∧ Is (t.next op).1 (step s op env).1) := by
  obtain ⟨f, ro⟩ := s
  have hon := h.on
  cases op with
  | boot => exact exec_tag h rfl henv (install_tag h.cc h.msg hA)
  | apdu i =>
    cases ro with
    | none =>
      right
      rw [next_off t hon (by simp)]
      exact ⟨rfl, h⟩
    | some r =>
      have hon : t.on = true := hon
      have hn : t.next (.apdu i) = ((t.command i.c).1, .reply (t.command i.c).2) := by simp [Tag.next, hon]
      rw [hn]
      exact exec_tag h (by rw [command_on, hon]) henv (wp_mono (process_tag h.shows hA)
        (fun _ _ _ h => ⟨congrArg _ h.1, h.2⟩) (fun _ _ _ h => ⟨congrArg _ h.1, h.2⟩) (fun _ _ h => h))
  | toggle c =>
    cases ro with
    | none =>
      right
      rw [next_off t hon (by simp)]
      exact ⟨rfl, h⟩
    | some r =>
      have hon : t.on = true := hon
      exact exec_tag h (by rw [toggle_on, hon]) henv (toggle_tag h.shows hon hA)
  | reset =>
    cases ro with
    | none =>
      right
      rw [next_off t hon (by simp)]
      exact ⟨rfl, h⟩
    | some r =>
      have hon : t.on = true := hon
      have hn : t.next .reset = (Tag.new, .reply (.sw 0x9000)) := by simp [Tag.next, hon, Tag.new]
      rw [hn]
      have he := exec_of_wp (P := fun o f' r' => match o with
        | .cut => False
        | .done a => a = .sw SW.ok ∧ f' = ⟨some defaultCc, some (resize initMsg 1024)⟩ ∧ r' = ⟨defaultCc, .none⟩)
        (wp_mono (install_reset_eff (f := f) (r := r)) (fun _ _ _ h => h) (fun _ _ _ h => h.elim) (fun _ _ h => h)) (hr rfl)
      right
      show (exec (install true) f r env).2 = _ ∧ Is _ (exec (install true) f r env).1
      rcases he with ⟨f', r', he, hc⟩ | ⟨f', r', a, he, rfl, rfl, rfl⟩
      · exact hc.elim
      · rw [he]
        exact ⟨rfl, rfl, ⟨_, rfl, holds_factory⟩, rfl, rfl, fun _ e => by cases e; rfl⟩
  | deselect =>
    right
    cases ro with
    | none =>
      rw [next_off t hon (by simp)]
      exact ⟨rfl, h⟩
    | some r =>
      have hon : t.on = true := hon
      have hn : t.next .deselect = ({ t with sel := none }, .none) := by simp [Tag.next, hon]
      rw [hn]
      exact ⟨rfl, h.cc, h.msg, hon, rfl, fun _ e => by cases e; exact h.ram r rfl⟩

/-- C114 for one operation: it was interrupted by a power cut and did nothing, or it was answered as the
machine answers and left the tag as the machine does. -/
theorem C114_step (t : Tag) (s : St) (h : Is t s) (op : Op) (env : Env) (hw : Works [(op, env)]) :
    ((step s op env).2 = .cut ∧ Is t.off (step s op env).1) ∨
    ((step s op env).2 = (t.next op).2 ∧ Is (t.next op).1 (step s op env).1) := by
  have hw := hw _ List.mem_cons_self
  have hc : env.all cutsOnly := by
    cases op <;> first | exact hw | exact fun n => by rw [show env n = .ok from hw n]; simp [cutsOnly]
  rcases step_tag (A := cutsOnly) t s h op env (fun h => h rfl) hc (by rintro rfl; exact hw) with ⟨h1, _, h2⟩ | h
  · exact .inl ⟨h1, h2⟩
  · exact .inr h

theorem works_tail {e : Op × Env} {h : List (Op × Env)} (hw : Works (e :: h)) : Works [e] ∧ Works h :=
  ⟨fun x hx => hw x (by simp at hx; simp [hx]), fun x hx => hw x (List.mem_cons_of_mem _ hx)⟩

/-- C114: whatever is done to the tag, with power cuts at any moment outside a reset, what is observed is a
history of the machine. -/
theorem C114_history (h : List (Op × Env)) : ∀ (t : Tag) (s : St), Is t s → Works h → Obeyed t (seen s h) := by
  induction h with
  | nil => intro _ _ _ _; trivial
  | cons e h ih =>
    obtain ⟨op, env⟩ := e
    intro t s hi hw
    obtain ⟨h1, h2⟩ := works_tail hw
    rcases C114_step t s hi op env h1 with ⟨ho, hi'⟩ | ⟨ho, hi'⟩
    · refine ⟨.inl ho, ih _ _ ?_ h2⟩
      unfold Tag.then_
      rw [if_pos ho]
      exact hi'
    · by_cases hc : (step s op env).2 = .cut
      · exfalso
        rw [ho] at hc
        revert hc
        cases op <;> simp only [Tag.next] <;> repeat' split
        all_goals simp
      · refine ⟨.inr ho, ih _ _ ?_ h2⟩
        unfold Tag.then_
        rw [if_neg hc]
        exact hi'

/-- A new device that is powered for the first time is a new tag. -/
theorem blank_is (env : Env) (he : env.all noFault) : Is Tag.new (step blank .boot env).1 := by
  have hw : wp noFault (install false)
      (fun a f' r' => a = .sw SW.ok ∧ f' = ⟨some defaultCc, some (resize initMsg 1024)⟩ ∧ r' = ⟨defaultCc, .none⟩)
      (fun _ _ _ => False) (fun _ _ => False) ⟨none, none⟩ Ram.init := by
    unfold install createInit
    simp only [Bool.false_eq_true, if_false]
    apply wp_bind; apply wp_mod
    apply wp_bind
    apply wp_bind; apply wp_rdF
    · intro _
      simp only [Option.map_none]
      apply wp_pure
      simp only [if_true]
      apply wp_bind; apply wp_mod
      apply wp_bind
      apply wp_bind; apply wp_wrOr
      · intro f' hf
        cases hf
        apply wp_wrOr
        · intro f' hf
          cases hf
          apply wp_bind; apply wp_get
          apply wp_bind; apply wp_wrOr
          · intro f' hf
            cases hf
            exact wp_pure ⟨rfl, rfl, rfl⟩
          · intro h; cases h
          · intro h; cases h
          · intro h; cases h
        · intro h; cases h
        · intro h; cases h
        · intro h; cases h
      · intro h; cases h
      · intro h; cases h
      · intro h; cases h
    · intro h; cases h
    · intro h; cases h
  show Is _ (exec (install false) ⟨none, none⟩ Ram.init env).1
  rcases exec_of_wp (P := fun o f' r' => match o with
    | .cut => False
    | .done a => a = .sw SW.ok ∧ f' = ⟨some defaultCc, some (resize initMsg 1024)⟩ ∧ r' = ⟨defaultCc, .none⟩)
    (wp_mono hw (fun _ _ _ h => h) (fun _ _ _ h => h.elim) (fun _ _ h => h)) he with
    ⟨f', r', he, hc⟩ | ⟨f', r', a, he, rfl, rfl, rfl⟩
  · exact hc.elim
  · rw [he]
    exact ⟨rfl, ⟨_, rfl, holds_factory⟩, rfl, rfl, fun _ e => by cases e; rfl⟩

/-- C114: from the first power-on of a new device, what is observed is a history of the machine. -/
theorem C114_life (env : Env) (he : env.all noFault) (h : List (Op × Env)) (hw : Works h) :
    Obeyed Tag.new (seen (step blank .boot env).1 h) := C114_history h _ _ (blank_is env he) hw

/-- C114: while power stays and the file system works, the answers are exactly those of the machine. -/
theorem C114_exact (h : List (Op × Env)) : ∀ (t : Tag) (s : St), Is t s → (∀ e ∈ h, e.2.all noFault) →
    (seen s h).map (·.2) = answers t (h.map (·.1)) := by
  induction h with
  | nil => intro _ _ _ _; rfl
  | cons e h ih =>
    obtain ⟨op, env⟩ := e
    intro t s hi hn
    have hno : env.all noFault := hn _ List.mem_cons_self
    rcases step_tag (A := noFault) t s hi op env (fun h => by cases h) hno (fun _ => hno) with ⟨_, hx, _⟩ | ⟨ho, hi'⟩
    · cases hx
    · show (step s op env).2 :: _ = (t.next op).2 :: _
      rw [ho]
      exact congrArg _ (ih _ _ hi' fun x hx => hn x (List.mem_cons_of_mem _ hx))

/-- C114: the answers of a new device, from its first power-on, while power stays and the file system works. -/
theorem C114_new (env : Env) (he : env.all noFault) (h : List (Op × Env)) (hn : ∀ e ∈ h, e.2.all noFault) :
    (seen (step blank .boot env).1 h).map (·.2) = answers Tag.new (h.map (·.1)) :=
  C114_exact h _ _ (blank_is env he) hn

/-! ### Cases that meet the hypotheses -/

/-- SELECT of the message file, UPDATE of three bytes at 1, read-only, UPDATE, power cycle, READ without and
with a selection. -/
def exLife : List (Op × Env) :=
  [(.apdu exSel, Env.good), (.apdu exUpd, Env.good), (.toggle exTog, Env.good), (.apdu exUpd, Env.good), (.boot, Env.good),
    (.apdu (exRead 5), Env.good), (.apdu exSel, Env.good), (.apdu (exRead 5), Env.good)]

example : (seen (step blank .boot Env.good).1 exLife).map (·.2) =
    [.reply (.sw 0x9000), .reply (.sw 0x9000), .reply (.sw 0x9000), .reply (.sw 0x6982), .reply (.sw 0x9000),
      .reply (.sw 0x6985), .reply (.sw 0x9000), .reply (.resp [0, 7, 8, 9] 0x9000)] := by decide +kernel

example := C114_new Env.good (fun _ => rfl) exLife (by
  intro e he
  simp only [exLife, List.mem_cons, List.not_mem_nil, or_false] at he
  rcases he with rfl | rfl | rfl | rfl | rfl | rfl | rfl | rfl <;> exact fun _ => rfl)

example := C114_life Env.good (fun _ => rfl) ((.toggle exTog, fun _ => .cut) :: exLife) (by
  intro e he
  simp only [exLife, List.mem_cons, List.not_mem_nil, or_false] at he
  rcases he with rfl | rfl | rfl | rfl | rfl | rfl | rfl | rfl | rfl <;> exact fun _ => by simp [cutsOnly, Env.good])

example : (seen (step blank .boot Env.good).1 [(.toggle exTog, fun _ => .cut), (.boot, Env.good), (.apdu exSel, Env.good),
    (.apdu exUpd, Env.good)]).map (·.2) =
    [.cut, .reply (.sw 0x9000), .reply (.sw 0x9000), .reply (.sw 0x9000)] := by decide +kernel

/-- C114 needs a file system that works: a TOGGLE NDEF READ ONLY that was answered with an error makes the tag
read-only all the same, until the next power-on. -/
theorem C114_failed_toggle : (seen (step blank .boot Env.good).1 [(.toggle exTog, fun _ => .fail), (.apdu exSel, Env.good),
    (.apdu exUpd, Env.good), (.boot, Env.good), (.apdu exSel, Env.good), (.apdu exUpd, Env.good)]).map (·.2) =
    [.reply (.sw 0x6900), .reply (.sw 0x9000), .reply (.sw 0x6982), .reply (.sw 0x9000), .reply (.sw 0x9000),
      .reply (.sw 0x9000)] := by decide +kernel

end Verif.Ndef
