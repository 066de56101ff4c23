import Verif.Lemmas.Touch
import Verif.Lemmas.OathEx
/-
Touch slots follow a small machine: property C112.
-/
namespace Verif.Oath
open Verif.Spec.Oath Verif.Spec.Touch Cmd

/-- C112. From the first start on, through every history of OATH commands, configurations, touches, resets, restarts and
power cuts at any file operation, the touch slots are those of the machine of the specification: configurations and touches
are answered as it says, and nothing else changes the slots. -/
theorem C112_machine (x : Ext) (hx : GoodHmac x) (s : St) (hf : s.flash.pass = none) (hr : s.ram.slot0 = .off ∧ s.ram.slot1 = .off)
    (ops : List (Op × Env)) (he : ∀ o ∈ ops, o.2.all cutsOnly) : Obeys x s ⟨none, .off⟩ ops := by
  have main : ∀ (ops : List (Op × Env)) (s : St) (m : Mach), Shows s.flash s.ram m → (∀ o ∈ ops, o.2.all cutsOnly) → Obeys x s m ops := by
    intro ops
    induction ops with
    | nil => intros; trivial
    | cons o ops ih =>
      intro s m hm he
      obtain ⟨op, env⟩ := o
      obtain ⟨m', h1, h2⟩ := touch_next hx hm op (he (op, env) List.mem_cons_self)
      exact ⟨m', h1, ih _ _ h2 fun o ho => he o (List.mem_cons_of_mem _ ho)⟩
  exact main ops s _ ⟨hf, by rw [hr.1, hr.2]; rfl⟩ he

/-- After every history there are slots of the machine. -/
theorem shows_run {x : Ext} (hx : GoodHmac x) {s : St} {m : Mach} (hm : Shows s.flash s.ram m) (ops : List (Op × Env))
    (he : ∀ o ∈ ops, o.2.all cutsOnly) : ∃ m', Shows (run x s ops).1.flash (run x s ops).1.ram m' := by
  induction ops generalizing s m with
  | nil => exact ⟨m, hm⟩
  | cons o ops ih =>
    obtain ⟨op, env⟩ := o
    obtain ⟨m', _, h2⟩ := touch_next hx hm op (he (op, env) List.mem_cons_self)
    exact ih h2 fun o ho => he o (List.mem_cons_of_mem _ ho)

/-- The slots are loaded after every start before anything else; `loaded`: they have been. -/
def Started (x : Ext) : Bool → St → List (Op × Env) → Prop
  | _, _, [] => True
  | loaded, s, (op, env) :: h => (loaded = false → op = .passInstall false ∨ op = .boot) ∧
      Started x (if op = .boot ∨ (step x s op env).2 = .cut then false else true) (step x s op env).1 h

/-- The operation is not one that assigns slot `p` or resets the slots. -/
def Spares (p : Byte) : Op → Prop
  | .passWrite c => c.p1 = 3 - p
  | .apdu i => i.c.ins = 0x55 → i.c.p1 ≠ p
  | .passInstall reset => reset = false
  | _ => True

/-- The slot with number 1 or 2. -/
def Slots.at (p : Byte) (l : Slots) : Action := if p = 1 then l.short else l.long

/-- An operation that spares a slot with a password leaves it as it is. -/
theorem spared {s : St} {l l' : Slots} {p : Byte} (hp : p = 1 ∨ p = 2) {pw : Bytes} {e : Byte} (hl : Slots.at p l = .password pw e) {op : Op} (hs : Spares p op)
    (h : Changes s l op l') : Slots.at p l' = .password pw e := by
  have hput : ∀ (k : Byte) (a : Action), k ≠ p → (k = 1 ∨ k = 2) → Slots.at p (l.put k a) = .password pw e := by
    intro k a hk h12
    unfold Slots.at Slots.put at *
    rcases hp with rfl | rfl <;> rcases h12 with rfl | rfl
    · exact absurd rfl hk
    · simpa using hl
    · simpa using hl
    · exact absurd rfl hk
  cases op with
  | passWrite c =>
    obtain ⟨h1, a, _, rfl⟩ := h
    refine hput _ _ ?_ h1
    have : c.p1 = 3 - p := hs
    rw [this]
    rcases hp with rfl | rfl <;> decide
  | apdu i =>
    obtain ⟨_, ⟨_, _, _, j, q, _, h⟩ | ⟨h5, h1, _, j, q, _, _, rfl⟩⟩ := h
    · unfold Slots.drop at h
      unfold Slots.at at *
      split at h
      · rename_i h0
        cases h
        rcases hp with rfl | rfl
        · simp at hl; rw [hl] at h0; cases h0
        · simpa using hl
      · split at h
        · rename_i h0
          cases h
          rcases hp with rfl | rfl
          · simpa using hl
          · simp at hl; rw [hl] at h0; cases h0
        · cases h
    · exact hput _ _ (hs h5) h1
  | touch => exact h.elim
  | passRead => exact h.elim
  | install => exact h.elim
  | passInstall => exact h.elim
  | powerOff => exact h.elim
  | boot => exact h.elim

/-- The ways in which an operation can end. -/
theorem next_cases {x : Ext} {s : St} {m m' : Mach} {op : Op} {o : Out} (h : Next x s m op o m') :
    (op = .boot ∧ m' = ⟨m.saved, .off⟩) ∨
    (∃ b, op = .passInstall b ∧ m' = ⟨some (if b then .off else m.saved.getD .off), if b then .off else m.saved.getD .off⟩) ∨
    (∃ l, Changes s m.live op l ∧ m' = ⟨some l, l⟩) ∨ (op ≠ .boot ∧ (∀ b, op ≠ .passInstall b) ∧ m' = m) := by
  cases op with
  | boot => exact Or.inl ⟨rfl, h⟩
  | passInstall b => exact Or.inr (Or.inl ⟨b, rfl, h.2⟩)
  | touch => exact Or.inr (Or.inr (Or.inr ⟨nofun, nofun, h.1⟩))
  | passRead => exact Or.inr (Or.inr (Or.inr ⟨nofun, nofun, h.1⟩))
  | passWrite c =>
    unfold Next at h
    dsimp only at h
    by_cases hp : c.p1 = 1 ∨ c.p1 = 2
    · rw [if_pos hp] at h
      cases hw : wanted c.data with
      | ok a =>
        rw [hw] at h
        exact Or.inr (Or.inr (Or.inl ⟨_, ⟨hp, a, hw, rfl⟩, h.2⟩))
      | error e =>
        rw [hw] at h
        exact Or.inr (Or.inr (Or.inr ⟨nofun, nofun, h.2⟩))
    · rw [if_neg hp] at h
      exact Or.inr (Or.inr (Or.inr ⟨nofun, nofun, h.2⟩))
  | apdu i =>
    rcases h with h | h
    · exact Or.inr (Or.inr (Or.inl h))
    · exact Or.inr (Or.inr (Or.inr ⟨nofun, nofun, h.2⟩))
  | install =>
    rcases h with h | h
    · exact Or.inr (Or.inr (Or.inl h))
    · exact Or.inr (Or.inr (Or.inr ⟨nofun, nofun, h.2⟩))
  | powerOff =>
    rcases h with h | h
    · exact Or.inr (Or.inr (Or.inl h))
    · exact Or.inr (Or.inr (Or.inr ⟨nofun, nofun, h.2⟩))

/-- C112. A password that was assigned to a slot with 9000 is what a touch types, exactly, after every history that does not
assign the slot again or reset the slots: whatever is done with the other slot and with OATH credentials, through restarts
and power cuts. -/
theorem C112_password (x : Ext) (hx : GoodHmac x) (s : St) (c : Verif.Apdu.Capdu) (hf : s.flash.pass = none) (hr : s.ram.slot0 = .off ∧ s.ram.slot1 = .off)
    (pre post : List (Op × Env)) (hpre : ∀ o ∈ pre, o.2.all cutsOnly) (hpost : ∀ o ∈ post, o.2.all cutsOnly ∧ Spares c.p1 o.1)
    (env env' : Env) (he : env.all cutsOnly) (he' : env'.all cutsOnly) (pw : Bytes) (e : Byte) (hw : wanted c.data = .ok (.password pw e))
    (hok : (step x (run x s pre).1 (.passWrite c) env).2 = .reply (.sw 0x9000))
    (hst : Started x true (step x (run x s pre).1 (.passWrite c) env).1 (post ++ [(.touch (c.p1 == 2), env')])) :
    let t := step x (run x (step x (run x s pre).1 (.passWrite c) env).1 post).1 (.touch (c.p1 == 2)) env'
    t.2 = .typed (some (pw ++ cr e)) ∨ t.2 = .cut := by
  obtain ⟨m, hm⟩ := shows_run hx (m := ⟨none, .off⟩) ⟨hf, by rw [hr.1, hr.2]; rfl⟩ pre hpre
  obtain ⟨m1, h1, hm1⟩ := touch_next hx hm (.passWrite c) he
  generalize (run x s pre).1 = s1 at *
  rw [hok] at h1
  rcases h1 with ⟨_, h1⟩ | ⟨h1, _⟩
  swap
  · cases h1
  generalize hs2 : (step x s1 (.passWrite c) env).1 = s2 at *
  unfold Next at h1
  dsimp only at h1
  by_cases hp : c.p1 = 1 ∨ c.p1 = 2
  swap
  · rw [if_neg hp] at h1; cases h1.1
  rw [if_pos hp, hw] at h1
  have hl : Slots.at c.p1 (m.live.put c.p1 (.password pw e)) = .password pw e := by
    unfold Slots.at Slots.put
    rcases hp with h | h <;> simp [h]
  have key : ∀ (post : List (Op × Env)) (s2 : St) (m1 : Mach) (b : Bool), Shows s2.flash s2.ram m1 →
      (∃ l, m1.saved = some l ∧ Slots.at c.p1 l = .password pw e) → (b = true → Slots.at c.p1 m1.live = .password pw e) →
      (∀ o ∈ post, o.2.all cutsOnly ∧ Spares c.p1 o.1) → Started x b s2 (post ++ [(.touch (c.p1 == 2), env')]) →
      (step x (run x s2 post).1 (.touch (c.p1 == 2)) env').2 = .typed (some (pw ++ cr e)) ∨
        (step x (run x s2 post).1 (.touch (c.p1 == 2)) env').2 = .cut := by
    intro post
    induction post with
    | nil =>
      intro s2 m1 b hm1 _ hb _ hst
      have hbt : b = true := by
        cases b with
        | true => rfl
        | false => rcases hst.1 rfl with h | h <;> cases h
      obtain ⟨m2, h2, _⟩ := touch_next hx hm1 (.touch (c.p1 == 2)) he'
      rcases h2 with ⟨_, _, b', h2, h3⟩ | ⟨h2, _⟩
      · left
        have : (if (c.p1 == 2) = true then m1.live.long else m1.live.short) = .password pw e := by
          rw [← hb hbt]
          unfold Slots.at
          rcases hp with h | h <;> simp [h]
        rw [this] at h3
        show (step x s2 _ env').2 = _
        rw [h2]
        cases h3
        rfl
      · exact Or.inr h2
    | cons o post ih =>
      intro s2 m1 b hm1 hsv hb hpost hst
      obtain ⟨op, env⟩ := o
      obtain ⟨h1, h2⟩ := hpost (op, env) List.mem_cons_self
      obtain ⟨m2, h3, hm2⟩ := touch_next hx hm1 op h1
      obtain ⟨l, hl1, hl2⟩ := hsv
      have live : ∀ {l'}, Changes s2 m1.live op l' → b = true := by
        intro l' h
        cases b with
        | true => rfl
        | false =>
          rcases hst.1 rfl with rfl | rfl
          · exact h.elim
          · exact h.elim
      refine ih _ m2 _ hm2 ?_ ?_ (fun o ho => hpost o (List.mem_cons_of_mem _ ho)) hst.2
      · rcases h3 with ⟨_, h3⟩ | ⟨_, _, h3 | ⟨l', h3, h4⟩⟩
        · rcases next_cases h3 with ⟨_, rfl⟩ | ⟨b', hop, rfl⟩ | ⟨l', h4, rfl⟩ | ⟨_, _, rfl⟩
          · exact ⟨l, hl1, hl2⟩
          · rw [hop] at h2
            have h2 : b' = false := h2
            subst h2
            exact ⟨l, by rw [hl1]; rfl, hl2⟩
          · exact ⟨l', rfl, spared hp (hb (live h4)) h2 h4⟩
          · exact ⟨l, hl1, hl2⟩
        · exact ⟨l, h3.trans hl1, hl2⟩
        · exact ⟨l', h4, spared hp (hb (live h3)) h2 h3⟩
      · intro hb'
        have hnb : ¬ (op = .boot ∨ (step x s2 op env).2 = .cut) := by
          intro h
          rw [if_pos h] at hb'
          cases hb'
        rcases h3 with ⟨_, h3⟩ | ⟨h3, _⟩
        · rcases next_cases h3 with ⟨h, _⟩ | ⟨b', hop, rfl⟩ | ⟨l', h4, rfl⟩ | ⟨g1, g2, rfl⟩
          · exact absurd (Or.inl h) hnb
          · rw [hop] at h2
            have h2 : b' = false := h2
            subst h2
            show Slots.at c.p1 (m1.saved.getD .off) = _
            rw [hl1]
            exact hl2
          · exact spared hp (hb (live h4)) h2 h4
          · refine hb ?_
            cases b with
            | true => rfl
            | false => rcases hst.1 rfl with h | h; exacts [absurd h (g2 _), absurd h g1]
        · exact absurd (Or.inr h3) hnb
  exact key post s2 m1 true hm1 ⟨_, by rw [h1.2], hl⟩ (fun _ => by rw [h1.2]; exact hl) hpost hst

/-! ### The hypotheses can be met -/

/-- A blank device. -/
def blankTouch : St := ⟨⟨none, none⟩, Ram.init⟩

example : blankTouch.flash.pass = none ∧ blankTouch.ram.slot0 = .off ∧ blankTouch.ram.slot1 = .off := ⟨rfl, rfl, rfl⟩

/-- The first start. -/
def firstStart : List (Op × Env) := [(.install false [1, 2, 3, 4, 5, 6, 7, 8], allOk), (.passInstall false, allOk)]
/-- The password `pw` with a carriage return for long touches. -/
def cfgLong : Verif.Apdu.Capdu := ⟨0, 0x44, 2, 0, [2, 2, 0x70, 0x77, 1], 0⟩
/-- The other slot is assigned, power is lost while it is assigned again, and the device starts again. -/
def later : List (Op × Env) := [(.passWrite ⟨0, 0x44, 1, 0, [2, 1, 0x78, 0], 0⟩, allOk), (.apdu (exCmd 0xA4 4 0 []), allOk),
  (.passWrite ⟨0, 0x44, 1, 0, [0], 0⟩, fun _ => .cut), (.passInstall false, allOk), (.touch false, allOk)]

example : wanted cfgLong.data = .ok (.password [0x70, 0x77] 1) := rfl

example : (step exX (run exX blankTouch firstStart).1 (.passWrite cfgLong) allOk).2 = .reply (.sw 0x9000) := by decide +kernel

example : (∀ o ∈ firstStart, o.2.all cutsOnly) ∧ ∀ o ∈ later, o.2.all cutsOnly ∧ Spares cfgLong.p1 o.1 := by
  constructor
  · intro o ho
    simp only [firstStart, List.mem_cons, List.not_mem_nil, or_false] at ho
    rcases ho with rfl | rfl <;> exact exOk
  · intro o ho
    simp only [later, List.mem_cons, List.not_mem_nil, or_false] at ho
    rcases ho with rfl | rfl | rfl | rfl | rfl
    · exact ⟨exOk, by show (1 : UInt8) = 3 - 2; decide⟩
    · exact ⟨exOk, fun h => absurd h (by decide)⟩
    · exact ⟨fun _ => nofun, by show (1 : UInt8) = 3 - 2; decide⟩
    · exact ⟨exOk, rfl⟩
    · exact ⟨exOk, trivial⟩

example : Started exX true (step exX (run exX blankTouch firstStart).1 (.passWrite cfgLong) allOk).1 (later ++ [(.touch (cfgLong.p1 == 2), allOk)]) := by
  refine ⟨nofun, nofun, nofun, fun _ => Or.inl rfl, fun h => ?_, fun h => ?_, trivial⟩
  · exact absurd h (by decide +kernel)
  · exact absurd h (by decide +kernel)

example : (run exX (step exX (run exX blankTouch firstStart).1 (.passWrite cfgLong) allOk).1 (later ++ [(.touch true, allOk)])).2.drop 2 =
    [.cut, .reply (.sw 0x9000), .typed (some [0x78]), .typed (some [0x70, 0x77, 0x0D])] := by decide +kernel

end Verif.Oath
