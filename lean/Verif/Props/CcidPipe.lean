import Verif.Spec.CcidPipe
/-
C119: responses of CCID reach the host in order and unmixed.
-/
namespace Verif.CcidPipe
open Verif.Spec.CcidPipe

theorem assemble_snoc (h : List Bytes) (b : Bytes) : assemble (h ++ [b]) =
    if ends b then ((assemble h).1 ++ [(assemble h).2 ++ b], []) else ((assemble h).1, (assemble h).2 ++ b) := by
  simp [assemble, List.foldl_append]

/-- What holds always: what the host has and what is on its way are the messages accepted. -/
inductive Inv (s : St) : Prop where
  | idle (h : s.bulk = .idle) (o : s.out = none) (a : assemble s.host = (s.sent, []))
  | one (m : Bytes) (ms : List Bytes) (h : s.bulk = .dataIn ∨ s.bulk = .ext) (o : s.out = some m) (e : ends m = true)
      (n : s.sent = ms ++ [m]) (a : assemble s.host = (ms, []))
  | two (m : Bytes) (ms : List Bytes) (h : s.bulk = .zlp) (o : s.out = some m) (e : m.length % 64 = 0)
      (n : s.sent = ms ++ [m]) (a : assemble s.host = (ms, []))
  | last (m : Bytes) (ms : List Bytes) (h : s.bulk = .dataIn) (o : s.out = some [])
      (n : s.sent = ms ++ [m]) (a : assemble s.host = (ms, m))

/-- What responses and time extensions look like: at least a header of ten bytes. -/
def Op.Ok : Op → Prop
  | .respond m _ => 10 ≤ m.length
  | .extend m => m.length = 10
  | _ => True

theorem inv_begin {s : St} (h : s.bulk = .idle) (o : s.out = none) (a : assemble s.host = (s.sent, [])) {ext : Bool}
    {m : Bytes} (hm : 10 ≤ m.length) (hx : ext = true → m.length = 10) : Inv (begin s ext m) ∧ (begin s ext m).clash = s.clash := by
  refine ⟨?_, by simp [begin, transmit, o]⟩
  cases ext with
  | true =>
    have := hx rfl
    exact .one m s.sent (Or.inr (by simp [begin, transmit])) rfl (by simp [ends, this]) rfl a
  | false =>
    by_cases e : m.length % 64 = 0
    · exact .two m s.sent (by simp [begin, transmit, e]) rfl e rfl a
    · exact .one m s.sent (Or.inl (by simp [begin, transmit, e])) rfl (by simp [ends, e]) rfl a

theorem inv_take {s : St} (i : Inv s) (hm : ∀ m ∈ s.sent, 10 ≤ m.length) : Inv (take s) ∧ (take s).clash = s.clash ∧
    (take s).sent = s.sent := by
  cases i with
  | idle h o a =>
    have e : take s = s := by unfold take; rw [o]
    rw [e]
    exact ⟨.idle h o a, rfl, rfl⟩
  | one m ms h o e n a =>
    have hz : s.bulk ≠ .zlp := by rcases h with h | h <;> simp [h]
    simp only [take, o, if_neg hz]
    refine ⟨.idle rfl rfl ?_, by simp, by simp⟩
    rw [assemble_snoc, if_pos e, a, n]
    simp
  | two m ms h o e n a =>
    have h10 := hm m (by rw [n]; simp)
    simp only [take, o, h, if_true]
    refine ⟨.last m ms rfl rfl n ?_, by simp [transmit], by simp [transmit]⟩
    have : ends m = false := by
      cases m with
      | nil => simp at h10
      | cons x m => simp [ends] at e ⊢; exact e
    simp only [transmit]
    rw [assemble_snoc, this, a]
    simp
  | last m ms h o n a =>
    have hz : s.bulk ≠ .zlp := by simp [h]
    simp only [take, o, if_neg hz]
    refine ⟨.idle rfl rfl ?_, by simp, by simp⟩
    rw [assemble_snoc, if_pos (by simp [ends]), a, n]
    simp

theorem inv_idle {s : St} (i : Inv s) (h : s.bulk = .idle) : s.out = none ∧ assemble s.host = (s.sent, []) := by
  cases i with
  | idle h o a => exact ⟨o, a⟩
  | one m ms h' => rcases h' with e | e <;> rw [h] at e <;> cases e
  | two m ms h' => rw [h] at h'; cases h'
  | last m ms h' => rw [h] at h'; cases h'

/-- The invariant with what goes with it. -/
def Good (s : St) : Prop := Inv s ∧ s.clash = false ∧ ∀ m ∈ s.sent, 10 ≤ m.length

theorem good_begin {s : St} (g : Good s) (h : s.bulk = .idle) {ext : Bool} {m : Bytes} (hm : 10 ≤ m.length)
    (hx : ext = true → m.length = 10) : Good (begin s ext m) := by
  obtain ⟨i, c, l⟩ := g
  obtain ⟨o, a⟩ := inv_idle i h
  obtain ⟨i', c'⟩ := inv_begin h o a hm hx
  refine ⟨i', c'.trans c, ?_⟩
  intro q hq
  simp only [begin, transmit, List.mem_append, List.mem_singleton] at hq
  rcases hq with hq | rfl
  · exact l q hq
  · exact hm

theorem good_take {s : St} (g : Good s) : Good (take s) := by
  obtain ⟨i, c, l⟩ := g
  obtain ⟨i', c', e⟩ := inv_take i l
  exact ⟨i', c'.trans c, by rw [e]; exact l⟩

theorem take_sent {s : St} : (take s).sent = s.sent := by
  unfold take
  split
  · rfl
  · simp only; split <;> simp [transmit]

theorem good_respond {m : Bytes} (hm : 10 ≤ m.length) : ∀ n takes s, Good s → Good (respond m n takes s).2 ∧
    ((respond m n takes s).1 = true → (respond m n takes s).2.sent = s.sent ++ [m]) ∧
    ((respond m n takes s).1 = false → (respond m n takes s).2.sent = s.sent) := by
  intro n
  induction n with
  | zero =>
    intro takes s g
    unfold respond
    split
    · rename_i h
      exact ⟨good_begin g h hm (by simp), fun _ => rfl, by simp⟩
    · exact ⟨g, by simp, fun _ => rfl⟩
  | succ n ih =>
    intro takes s g
    unfold respond
    split
    · rename_i h
      exact ⟨good_begin g h hm (by simp), fun _ => rfl, by simp⟩
    · simp only
      have hg : Good (if takes.headD false then take s else s) := by
        split
        · exact good_take g
        · exact g
      have hs : (if takes.headD false then take s else s).sent = s.sent := by
        split
        · exact take_sent
        · rfl
      have := ih takes.tail _ hg
      rw [hs] at this
      exact this

theorem good_step {s : St} (g : Good s) {o : Op} (ho : o.Ok) : Good (step s o) := by
  cases o with
  | cmd =>
    obtain ⟨i, c, l⟩ := g
    refine ⟨?_, c, l⟩
    cases i with
    | idle h o a => exact .idle h o a
    | one m ms h o e n a => exact .one m ms h o e n a
    | two m ms h o e n a => exact .two m ms h o e n a
    | last m ms h o n a => exact .last m ms h o n a
  | respond m takes => exact (good_respond ho 50 takes s g).1
  | extend m =>
    simp only [step, extend]
    split
    · rename_i h
      have : m.length = 10 := ho
      exact good_begin g h (by omega) (fun _ => this)
    · exact g
  | take => exact good_take g

theorem good_run (ops : List Op) : ∀ {s : St}, Good s → (∀ o ∈ ops, o.Ok) → Good (run s ops) := by
  induction ops with
  | nil => exact fun g _ => g
  | cons o ops ih =>
    intro s g h
    exact ih (good_step g (h o List.mem_cons_self)) (fun o' h' => h o' (List.mem_cons_of_mem _ h'))

theorem good_init : Good init := ⟨.idle rfl rfl rfl, rfl, by simp [init]⟩

/-- **C119.** In every history no transmission is begun before the last one was taken, and the messages the host has
received are, in order and complete, those that were accepted for transmission, except at most the last one. When
nothing is on its way they are all of them. -/
theorem C119_in_order (ops : List Op) (h : ∀ o ∈ ops, o.Ok) :
    let s := run init ops
    s.clash = false ∧ (∃ rest, s.sent = (assemble s.host).1 ++ rest ∧ rest.length ≤ 1) ∧
      (s.out = none → assemble s.host = (s.sent, [])) := by
  intro s
  obtain ⟨i, c, l⟩ := good_run ops good_init h
  refine ⟨c, ?_⟩
  change Inv s at i
  cases i with
  | idle _ o a => exact ⟨⟨[], by simp [a], by simp⟩, fun _ => a⟩
  | one m ms _ o _ n a => exact ⟨⟨[m], by simp [a, n], by simp⟩, fun e => by rw [o] at e; cases e⟩
  | two m ms _ o _ n a => exact ⟨⟨[m], by simp [a, n], by simp⟩, fun e => by rw [o] at e; cases e⟩
  | last m ms _ o n a => exact ⟨⟨[m], by simp [a, n], by simp⟩, fun e => by rw [o] at e; cases e⟩

/-- **C119.** The buffer is given back only when the host has everything. -/
theorem C119_release (ops : List Op) (h : ∀ o ∈ ops, o.Ok) :
    let s := run init ops
    s.held = true → (take s).held = false → (take s).out = none ∧ assemble (take s).host = (s.sent, []) := by
  intro s h1 h2
  obtain ⟨i, c, l⟩ := good_take (good_run ops good_init h)
  change Inv (take s) at i
  have hb : (take s).bulk = .idle := by
    unfold take at h2 ⊢
    split at h2
    · rw [h1] at h2; cases h2
    · rename_i b e
      simp only at h2 ⊢
      split at h2
      · simp [transmit, h1] at h2
      · rename_i hz; rw [if_neg hz]
  have := inv_idle i hb
  rw [take_sent] at this
  exact this

/-- **C119.** Time extensions do not give back the buffer: when nothing is on its way, no number of them, taken or not,
changes who owns it. -/
theorem C119_extension_keeps (ops : List Op) (h : ∀ o ∈ ops, o.Ok) (after : List Op)
    (ha : ∀ o ∈ after, o = .take ∨ ∃ m, o = .extend m) :
    let s := run init ops
    s.out = none → (run s after).held = s.held := by
  intro s hs
  have hb : s.bulk = .idle := by
    cases (good_run ops good_init h).1 with
    | idle h => exact h
    | one m ms _ o => rw [show s.out = _ from o] at hs; cases hs
    | two m ms _ o => rw [show s.out = _ from o] at hs; cases hs
    | last m ms _ o => rw [show s.out = _ from o] at hs; cases hs
  clear_value s
  have inv : ∀ (after : List Op) (s : St), (∀ o ∈ after, o = .take ∨ ∃ m, o = .extend m) →
      ((s.bulk = .ext ∧ ∃ m, s.out = some m) ∨ (s.bulk = .idle ∧ s.out = none)) → (run s after).held = s.held := by
    intro after
    induction after with
    | nil => exact fun s _ _ => rfl
    | cons o after ih =>
      intro s ho h3
      have hstep : (step s o).held = s.held ∧
          (((step s o).bulk = .ext ∧ ∃ m, (step s o).out = some m) ∨ ((step s o).bulk = .idle ∧ (step s o).out = none)) := by
        rcases ho o List.mem_cons_self with rfl | ⟨m, rfl⟩
        · rcases h3 with ⟨hb, m, hout⟩ | ⟨hb, hout⟩
          · simp [step, take, hout, hb]
          · have e : step s .take = s := by unfold step take; rw [hout]
            rw [e]
            exact ⟨rfl, Or.inr ⟨hb, hout⟩⟩
        · rcases h3 with ⟨hb, m', hout⟩ | ⟨hb, hout⟩
          · simp [step, extend, hb, hout]
          · simp [step, extend, hb, begin, transmit]
      have := ih (step s o) (fun o' h' => ho o' (List.mem_cons_of_mem _ h')) hstep.2
      exact this.trans hstep.1
  exact inv after s ha (Or.inr ⟨hb, hs⟩)

/-- **C119.** A response is accepted if the host takes at least two transmissions in the 50 milliseconds the device
waits, or at least one if what is on its way needs no empty packet. -/
theorem C119_accepted_partial {s : St} (g : Good s) {m : Bytes} (hm : 10 ≤ m.length) : ∀ (n : Nat) (takes : List Bool),
    (if s.bulk = .idle then 0 else if s.bulk = .zlp then 2 else 1) ≤ (takes.take n).count true →
    (respond m n takes s).1 = true ∧ (respond m n takes s).2.sent = s.sent ++ [m] := by
  intro n takes hc
  have key : (respond m n takes s).1 = true := by
    induction n generalizing takes s with
    | zero =>
      unfold respond
      split
      · rfl
      · rename_i h
        rw [if_neg h] at hc
        split at hc <;> simp at hc
    | succ n ih =>
      unfold respond
      split
      · rfl
      · rename_i h
        simp only
        rw [if_neg h] at hc
        rcases takes with _ | ⟨_ | _, takes⟩
        · split at hc <;> simp at hc
        · simp only [List.headD_cons, List.tail_cons, Bool.false_eq_true, if_false]
          apply ih g
          rw [if_neg h]
          simpa using hc
        · simp only [List.headD_cons, List.tail_cons, if_true]
          apply ih (good_take g)
          simp only [List.take_succ_cons, List.count_cons_self] at hc
          have : ∃ b, s.out = some b := by
            cases g.1 with
            | idle h' => exact absurd h' h
            | one m ms _ o => exact ⟨m, o⟩
            | two m ms _ o => exact ⟨m, o⟩
            | last m ms _ o => exact ⟨[], o⟩
          obtain ⟨b, e⟩ := this
          by_cases hz : s.bulk = .zlp
          · rw [if_pos hz] at hc
            simp only [take, e, hz, if_true, transmit]
            change 1 ≤ _
            omega
          · simp only [take, e, if_neg hz]
            simp
  exact ⟨key, (good_respond hm n takes s g).2.1 key⟩

/-- **C119, refuted for a slow host.** If the host does not take a time extension within 50 milliseconds of the response,
the response is lost: it is never sent, and as long as there is no further command the buffer stays with CCID, whatever
the host takes and however often the timer runs. -/
theorem C119_refuted_lost (ext m : Bytes) (he : ext.length = 10) (after : List Op)
    (ha : ∀ o ∈ after, o = .take ∨ o = .extend ext) :
    let s := run init ([.cmd, .extend ext, .respond m []] ++ after)
    s.held = true ∧ ∀ q ∈ s.sent, q = ext := by
  intro s
  have inv : ∀ (after : List Op) (s : St), (∀ o ∈ after, o = .take ∨ o = .extend ext) →
      (s.held = true ∧ (∀ q ∈ s.sent, q = ext) ∧ ((s.bulk = .ext ∧ s.out = some ext) ∨ (s.bulk = .idle ∧ s.out = none))) →
      (run s after).held = true ∧ ∀ q ∈ (run s after).sent, q = ext := by
    intro after
    induction after with
    | nil => exact fun s _ h => ⟨h.1, h.2.1⟩
    | cons o after ih =>
      intro s ho h
      apply ih (step s o) (fun o' h' => ho o' (List.mem_cons_of_mem _ h'))
      obtain ⟨h1, h2, h3⟩ := h
      rcases ho o List.mem_cons_self with rfl | rfl
      · rcases h3 with ⟨hb, hout⟩ | ⟨hb, hout⟩
        · simp [step, take, hout, hb, h1]; exact h2
        · have e : step s .take = s := by unfold step take; rw [hout]
          rw [e]
          exact ⟨h1, h2, Or.inr ⟨hb, hout⟩⟩
      · rcases h3 with ⟨hb, hout⟩ | ⟨hb, hout⟩
        · simp only [step, extend, hb]; exact ⟨h1, h2, Or.inl ⟨hb, hout⟩⟩
        · simp only [step, extend, hb, if_true, begin, transmit]
          refine ⟨h1, ?_, Or.inl ⟨trivial, trivial⟩⟩
          intro q hq
          rcases List.mem_append.mp hq with hq | hq
          · exact h2 q hq
          · simpa using hq
  have hwait : ∀ n (s : St), s.bulk = .ext → (respond m n [] s) = (false, s) := by
    intro n
    induction n with
    | zero => intro s h; unfold respond; rw [if_neg (by simp [h])]
    | succ n ih => intro s h; unfold respond; rw [if_neg (by simp [h])]; exact ih s h
  have e : run init [.cmd, .extend ext, .respond m []] = ⟨.ext, some ext, [], true, false, [ext]⟩ := by
    simp only [run, List.foldl_cons, List.foldl_nil, step]
    have e1 : extend { init with held := true } ext = ⟨.ext, some ext, [], true, false, [ext]⟩ := rfl
    rw [e1, hwait 50 _ rfl]
  have e' : s = run ⟨.ext, some ext, [], true, false, [ext]⟩ after := by
    rw [← e]; simp only [s, run, List.foldl_append]
  rw [e']
  exact inv after _ ha ⟨rfl, by simp, Or.inl ⟨rfl, rfl⟩⟩

/-! ### Concrete cases -/

namespace Ex

def ext : Bytes := [0x80, 0, 0, 0, 0, 0, 7, 0x80, 1, 0]
def answer : Bytes := List.replicate 64 1

/-- A time extension, then a response that fills its packet and is ended by an empty one. -/
def talk : List Op := [.cmd, .extend ext, .respond answer [false, true], .take, .take]

example : ∀ o ∈ talk, o.Ok := by simp [talk, Op.Ok, ext, answer]
example : (assemble (run init talk).host).1 = [ext, answer] ∧ (run init talk).held = false := by decide +kernel
/-- The buffer is not yet given back when the empty packet is missing. -/
example : (run init (talk.take 4)).held = true ∧ (assemble (run init (talk.take 4)).host) = ([ext], answer) := by
  decide +kernel

end Ex

end Verif.CcidPipe
