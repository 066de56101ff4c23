import Verif.Model.CtapParse
/-
The buffers of a clientPIN request keep their sizes while it is parsed.
-/
namespace Verif.Ctap.Parse
open Verif.Ctap

theorem bind_gives {α β : Type} {m : P α} {k : α → P β} {b : β} (h : (m >>= k) = .ok b) : ∃ a, m = .ok a ∧ k a = .ok b := by
  cases hm : m with
  | error e => rw [hm] at h; cases h
  | ok a => rw [hm] at h; exact ⟨a, rfl, h⟩

theorem eachInt_inv {σ : Type} {body : Int → Cbor → σ → P σ} {I : σ → Prop}
    (h : ∀ k v s s', I s → body k v s = .ok s' → I s') :
    ∀ (l : List (Cbor × Cbor)) (s s' : σ), I s → eachInt body l s = .ok s' → I s' := by
  intro l
  induction l with
  | nil => intro s s' hs he; cases he; exact hs
  | cons p l ih =>
    intro s s' hs he
    obtain ⟨k, v⟩ := p
    unfold eachInt at he
    obtain ⟨key, _, he⟩ := bind_gives he
    obtain ⟨s1, h1, he⟩ := bind_gives he
    obtain ⟨_, _, he⟩ := bind_gives he
    exact ih _ _ (h _ _ _ _ hs h1) he

theorem copyIn_fits {cap lim : Nat} {b c : Bytes} {o : Byte} (h : copyIn cap lim b o = .ok c) : c = b ∧ b.length ≤ cap := by
  unfold copyIn at h
  by_cases h1 : b.length > lim
  · rw [if_pos h1] at h
    cases h
  · rw [if_neg h1] at h
    by_cases h2 : (if b.length < lim then b.length + 1 else b.length) > cap
    · rw [if_pos h2] at h
      cases h
    · rw [if_neg h2] at h
      cases h
      refine ⟨rfl, ?_⟩
      split at h2 <;> omega

theorem put_keeps {buf b : Bytes} (h : b.length ≤ buf.length) : (put buf b).length = buf.length := by
  unfold put
  rw [List.length_append, List.length_drop]
  omega

/-- The sizes of the two encrypted fields. -/
def CpSizes (s : CpS) : Prop := s.q.newPinEnc.length = 80 ∧ s.q.pinHashEnc.length = 32

theorem cpEntry_keeps (x : Ext) (k : Int) (v : Cbor) (s s' : CpS) (h : CpSizes s) (he : cpEntry x k v s = .ok s') :
    CpSizes s' := by
  unfold cpEntry at he
  split at he
  · obtain ⟨_, _, he⟩ := bind_gives he
    cases he; exact h
  split at he
  · obtain ⟨_, _, he⟩ := bind_gives he
    cases he; exact h
  split at he
  · obtain ⟨_, _, he⟩ := bind_gives he
    cases he; exact h
  split at he
  · obtain ⟨_, _, he⟩ := bind_gives he
    obtain ⟨_, _, he⟩ := bind_gives he
    obtain ⟨_, _, he⟩ := bind_gives he
    cases he; exact h
  split at he
  · obtain ⟨_, _, he⟩ := bind_gives he
    obtain ⟨_, _, he⟩ := bind_gives he
    obtain ⟨c, hc, he⟩ := bind_gives he
    cases he
    have := copyIn_fits hc
    refine ⟨?_, h.2⟩
    show (put s.q.newPinEnc c).length = 80
    rw [put_keeps (by rw [this.1, h.1]; exact this.2), h.1]
  split at he
  · obtain ⟨_, _, he⟩ := bind_gives he
    obtain ⟨_, _, he⟩ := bind_gives he
    obtain ⟨c, hc, he⟩ := bind_gives he
    cases he
    have := copyIn_fits hc
    refine ⟨h.1, ?_⟩
    show (put s.q.pinHashEnc c).length = 32
    rw [put_keeps (by rw [this.1, h.2]; exact this.2), h.2]
  split at he
  · obtain ⟨_, _, he⟩ := bind_gives he
    obtain ⟨_, _, he⟩ := bind_gives he
    obtain ⟨_, _, he⟩ := bind_gives he
    cases he; exact h
  split at he
  · obtain ⟨_, _, he⟩ := bind_gives he
    obtain ⟨_, _, he⟩ := bind_gives he
    obtain ⟨_, _, he⟩ := bind_gives he
    cases he; exact h
  · cases he; exact h

/-- A request from the parser has whole fields. -/
theorem parseCp_sizes {x : Ext} {v : Cbor} {q : CpReq} (h : parseCp x v = .ok q) :
    q.newPinEnc.length = 80 ∧ q.pinHashEnc.length = 32 := by
  unfold parseCp at h
  obtain ⟨l, _, h⟩ := bind_gives h
  obtain ⟨s, hs, h⟩ := bind_gives h
  iterate 7 obtain ⟨_, _, h⟩ := bind_gives h
  cases h
  exact eachInt_inv (I := CpSizes) (cpEntry_keeps x) l cpInit s ⟨rfl, rfl⟩ hs

end Verif.Ctap.Parse
