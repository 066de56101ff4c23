import Verif.Model.HidPipe
import Verif.Spec.Hid
import Mathlib.Data.List.Basic
/-
C120: a CTAPHID response is never received garbled.
-/
namespace Verif.HidPipe
open Verif.Hid (Frame)
open Verif.Spec.Hid

/-- The pipe is busy exactly while a packet is on its way. -/
def Ok (s : St) : Prop := s.busy = s.out.isSome

/-- What the host has or will get. -/
def St.all (s : St) : List Frame := s.host ++ s.out.toList

theorem take_ok {s : St} (h : Ok s) : Ok (take s) ∧ (take s).all = s.all := by
  obtain ⟨b, o, l⟩ := s
  cases o with
  | none => exact ⟨h, rfl⟩
  | some f => exact ⟨rfl, by simp [take, St.all]⟩

theorem sendReport_ok (f : Frame) : ∀ n takes s, Ok s → Ok (sendReport f n takes s).2 ∧
    (sendReport f n takes s).2.all = if (sendReport f n takes s).1 then s.all ++ [f] else s.all := by
  intro n
  induction n with
  | zero =>
    intro takes s h
    unfold sendReport
    split
    · exact ⟨h, rfl⟩
    · rename_i hb
      refine ⟨rfl, ?_⟩
      have : s.out = none := by
        have h' := h
        unfold Ok at h'
        simp only [Bool.not_eq_true] at hb
        rw [hb] at h'
        simpa using h'.symm
      simp [St.all, this]
  | succ n ih =>
    intro takes s h
    unfold sendReport
    split
    · simp only
      have hs : Ok (if takes.headD false then take s else s) ∧ (if takes.headD false then take s else s).all = s.all := by
        split
        · exact take_ok h
        · exact ⟨h, rfl⟩
      have := ih takes.tail _ hs.1
      rw [hs.2] at this
      exact this
    · rename_i hb
      refine ⟨rfl, ?_⟩
      have : s.out = none := by
        have h' := h
        unfold Ok at h'
        simp only [Bool.not_eq_true] at hb
        rw [hb] at h'
        simpa using h'.symm
      simp [St.all, this]

theorem sendAll_ok (l : List (Frame × List Bool)) : ∀ s, Ok s → Ok (sendAll s l) ∧
    ∃ l', l'.Sublist (l.map (·.1)) ∧ (sendAll s l).all = s.all ++ l' := by
  induction l with
  | nil => exact fun s h => ⟨h, [], by simp, by simp [sendAll]⟩
  | cons x l ih =>
    obtain ⟨f, takes⟩ := x
    intro s h
    obtain ⟨h1, h2⟩ := sendReport_ok f 50 takes s h
    obtain ⟨h3, l', h4, h5⟩ := ih _ h1
    refine ⟨h3, ?_⟩
    simp only [sendAll]
    rw [h5, h2]
    split
    · exact ⟨f :: l', h4.cons_cons f, by simp⟩
    · exact ⟨l', h4.cons f, rfl⟩

/-- The numbers of continuation packets. -/
theorem conts_seq (cid : UInt32) : ∀ (k : Nat) (m : Bytes) (seq : Nat), m.length ≤ 59 * k → ∀ g ∈ conts cid seq m,
    ∃ i d, seq ≤ i ∧ i < seq + k ∧ g = ⟨cid, UInt8.ofNat i :: d⟩ := by
  intro k
  induction k with
  | zero =>
    intro m seq h g hg
    have : m = [] := List.length_eq_zero_iff.mp (by omega)
    subst this
    rw [conts] at hg
    simp at hg
  | succ k ih =>
    intro m seq h g hg
    rw [conts] at hg
    split at hg
    · cases hg
    · rcases List.mem_cons.mp hg with rfl | hg
      · exact ⟨seq, _, Nat.le_refl _, by omega, rfl⟩
      · obtain ⟨i, d, h1, h2, e⟩ := ih (m.drop 59) (seq + 1) (by simp; omega) g hg
        exact ⟨i, d, by omega, by omega, e⟩

theorem ofNat_ne {i j : Nat} (hi : i < 256) (hj : j < 256) (h : i ≠ j) : UInt8.ofNat i ≠ UInt8.ofNat j := by
  intro e
  have := congrArg UInt8.toNat e
  simp only [UInt8.toNat_ofNat'] at this
  omega

/-- Some of the continuation packets are put together to nothing but the rest of the message. -/
theorem collect_sublist (cid : UInt32) : ∀ (k : Nat) (m : Bytes) (seq : Nat), m.length ≤ 59 * k → seq + k ≤ 256 →
    ∀ l, l.Sublist (conts cid seq m) → ∀ r, collect cid seq m.length l = some r → r = m := by
  intro k
  induction k with
  | zero =>
    intro m seq h hk l hl r hr
    have : m = [] := List.length_eq_zero_iff.mp (by omega)
    subst this
    rw [conts] at hl
    simp only [dite_true, List.sublist_nil] at hl
    subst hl
    simp [collect] at hr
    exact hr
  | succ k ih =>
    intro m seq h hk l hl r hr
    by_cases hm : m = []
    · subst hm
      rw [conts] at hl
      simp only [dite_true, List.sublist_nil] at hl
      subst hl
      simp [collect] at hr
      exact hr
    · have hpos : 0 < m.length := List.length_pos_iff.2 hm
      rw [conts, dif_neg hm] at hl
      have hrest : ∀ g ∈ conts cid (seq + 1) (m.drop 59), ∃ i d, seq + 1 ≤ i ∧ i < seq + 1 + k ∧ g = ⟨cid, UInt8.ofNat i :: d⟩ :=
        conts_seq cid k (m.drop 59) (seq + 1) (by simp; omega)
      cases l with
      | nil => simp only [collect] at hr; rw [if_neg (by omega)] at hr; cases hr
      | cons g l =>
        rcases List.sublist_cons_iff.mp hl with hl | ⟨r', e, hl⟩
        · obtain ⟨i, d, h1, h2, rfl⟩ := hrest g (hl.subset List.mem_cons_self)
          simp only [collect] at hr
          rw [if_pos] at hr
          · cases hr
          · right; right; right
            simp only [List.head?_cons, ne_eq, Option.some.injEq]
            exact ofNat_ne (by omega) (by omega) (by omega)
        · cases e
          simp only [collect] at hr
          split at hr
          · cases hr
          · have hn : m.length - 59 = (m.drop 59).length := by simp
            rw [hn] at hr
            obtain ⟨r', h1, h2⟩ := Option.map_eq_some_iff.mp hr
            have := ih (m.drop 59) (seq + 1) (by simp; omega) (by omega) l hl r' h1
            subst this
            rw [← h2]
            simp only [List.drop_succ_cons, List.drop_zero, pad]
            rw [List.take_append_of_le_length (by simp; omega), List.take_take]
            have e1 : min (min m.length 59) 59 = min m.length 59 := by omega
            rw [e1]
            rcases Nat.le_total m.length 59 with hle | hle
            · rw [Nat.min_eq_left hle, List.take_length, List.drop_eq_nil_of_le hle, List.append_nil]
            · rw [Nat.min_eq_right hle, List.take_append_drop]

/-- **C120.** Whatever packets of a response get lost because the host is slow: if what the host received from the device
is a response at all (it begins with a command), it is exactly the response that was sent. -/
theorem C120_never_garbled (cid : UInt32) (cmd : Byte) (m : Bytes) (hm : m.length ≤ 57 + 59 * 128)
    (l : List (Frame × List Bool)) (hl : l.map (·.1) = encode cid cmd m) (s : St) (hs : s.busy = s.out.isSome) :
    ∃ got, (sendAll s l).host ++ (sendAll s l).out.toList = s.host ++ s.out.toList ++ got ∧
      ∀ c k r, decode got = some (c, k, r) → k &&& 0x80 = 0x80 → (c, k, r) = (cid, cmd, m) := by
  obtain ⟨_, got, hg, e⟩ := sendAll_ok l s hs
  refine ⟨got, e, ?_⟩
  intro c k r hd hk
  rw [hl, encode] at hg
  have hseq := conts_seq cid 128 (m.drop 57) 0 (by simp; omega)
  cases got with
  | nil => simp [decode] at hd
  | cons g got =>
    rcases List.sublist_cons_iff.mp hg with hg | ⟨r', e', hg⟩
    · exfalso
      obtain ⟨i, d, _, h2, rfl⟩ := hseq g (hg.subset List.mem_cons_self)
      have hk' : k = UInt8.ofNat i := by
        unfold decode at hd
        simp only at hd
        split at hd
        · rename_i heq
          split at hd
          · cases hd
          · obtain ⟨_, _, h3⟩ := Option.map_eq_some_iff.mp hd
            cases h3
            cases heq
            rfl
        · cases hd
      have : ∀ i < 128, ¬ (UInt8.ofNat i &&& 0x80 = 0x80) := by decide +kernel
      exact this i (by omega) (hk' ▸ hk)
    · cases e'
      have hv : (UInt8.ofNat (m.length / 256)).toNat * 256 + (UInt8.ofNat m.length).toNat = m.length := by
        simp only [UInt8.toNat_ofNat']; omega
      simp only [decode, List.cons_append, List.nil_append] at hd
      rw [hv] at hd
      split at hd
      · cases hd
      · obtain ⟨r', h1, h2⟩ := Option.map_eq_some_iff.mp hd
        have hn : m.length - 57 = (m.drop 57).length := by simp
        rw [hn] at h1
        have := collect_sublist cid 128 (m.drop 57) 0 (by simp; omega) (by omega) got hg r' h1
        subst this
        cases h2
        congr 2
        simp only [pad]
        rw [List.take_append_of_le_length (by simp; omega), List.take_take]
        have e1 : min (min m.length 57) 57 = min m.length 57 := by omega
        rw [e1]
        rcases Nat.le_total m.length 57 with hle | hle
        · rw [Nat.min_eq_left hle, List.take_length, List.drop_eq_nil_of_le hle, List.append_nil]
        · rw [Nat.min_eq_right hle, List.take_append_drop]

theorem sendReport_quick (f : Frame) : ∀ n takes s, Ok s → true ∈ takes.take n → (sendReport f n takes s).1 = true := by
  intro n
  induction n with
  | zero => intro takes s _ h; simp at h
  | succ n ih =>
    intro takes s hs h
    unfold sendReport
    split
    · simp only
      rcases takes with _ | ⟨_ | _, takes⟩
      · simp at h
      · simp only [List.headD_cons, List.tail_cons, Bool.false_eq_true, if_false]
        apply ih _ _ hs
        simpa using h
      · simp only [List.headD_cons, List.tail_cons, if_true]
        have : (take s).busy = false := by
          rename_i hb
          have h' := hs
          unfold Ok at h'
          rw [hb] at h'
          obtain ⟨g, e⟩ := Option.isSome_iff_exists.mp h'.symm
          simp [take, e]
        unfold sendReport
        rw [this]
        rfl
    · rfl

/-- **C120.** A host that takes a packet within 50 milliseconds of every packet gets all of them, in order. -/
theorem C120_complete (l : List (Frame × List Bool)) (hq : ∀ x ∈ l, true ∈ x.2.take 50) : ∀ s : St, s.busy = s.out.isSome →
    (sendAll s l).host ++ (sendAll s l).out.toList = s.host ++ s.out.toList ++ l.map (·.1) := by
  induction l with
  | nil => intro s _; simp [sendAll]
  | cons x l ih =>
    obtain ⟨f, takes⟩ := x
    intro s hs
    obtain ⟨h1, h2⟩ := sendReport_ok f 50 takes s hs
    have := sendReport_quick f 50 takes s hs (hq _ List.mem_cons_self)
    rw [this] at h2
    have h3 := ih (fun y hy => hq y (List.mem_cons_of_mem _ hy)) _ h1
    simp only [sendAll]
    rw [h3]
    have h2' : (sendReport f 50 takes s).2.host ++ (sendReport f 50 takes s).2.out.toList = s.host ++ s.out.toList ++ [f] := h2
    rw [h2']
    simp

/-- **C120, refuted for a slow host.** Every packet behind one that the host does not take is lost, and the device does
not notice. -/
theorem C120_refuted_lost (s : St) (hb : s.busy = true) (fs : List Frame) : sendAll s (fs.map fun f => (f, [])) = s := by
  have hw : ∀ f n, sendReport f n [] s = (false, s) := by
    intro f n
    induction n with
    | zero => unfold sendReport; rw [if_pos hb]
    | succ n ih => unfold sendReport; rw [if_pos hb]; exact ih
  induction fs with
  | nil => rfl
  | cons f fs ih => simp only [List.map_cons, sendAll, hw]; exact ih

/-! ### Concrete cases -/

namespace Ex

def msg : Bytes := List.replicate 57 1 ++ List.replicate 59 2 ++ List.replicate 59 3

/-- The host pauses after the first packet: the second one is lost, the third one arrives. -/
def slow : List (Frame × List Bool) := (encode 5 0x90 msg).zip [[], [], [true]]

def fast : List (Frame × List Bool) := (encode 5 0x90 msg).zip [[true], [false, true], [true]]

example : slow.map (·.1) = encode 5 0x90 msg ∧ fast.map (·.1) = encode 5 0x90 msg ∧ msg.length ≤ 57 + 59 * 128 := by
  decide +kernel
example : (sendAll ⟨false, none, []⟩ slow).host.length = 1 ∧ (sendAll ⟨false, none, []⟩ slow).out.isSome = true ∧
    decode (take (sendAll ⟨false, none, []⟩ slow)).host = none := by decide +kernel
example : (∀ x ∈ fast, true ∈ x.2.take 50) ∧ decode (take (sendAll ⟨false, none, []⟩ fast)).host = some (5, 0x90, msg) := by
  decide +kernel

/-- A second response on the same channel. -/
def msg2 : Bytes := List.replicate 57 4 ++ List.replicate 59 5 ++ List.replicate 59 6

/-- The host does not take packets while the end of the first response and the begin of the second one are sent. -/
def both : List (Frame × List Bool) := (encode 5 0x90 msg ++ encode 5 0x90 msg2).zip [[], [true], [], [], [], [true]]

/-- **C120 is about one response**: if the host asks again on the same channel although it has not received a response
completely, the packets that remain of the two can fit together to a response that was never given. -/
theorem C120_two_responses_mix : both.map (·.1) = encode 5 0x90 msg ++ encode 5 0x90 msg2 ∧
    decode (take (sendAll ⟨false, none, []⟩ both)).host =
      some (5, 0x90, List.replicate 57 1 ++ List.replicate 59 2 ++ List.replicate 59 6) := by
  decide +kernel

end Ex

end Verif.HidPipe
