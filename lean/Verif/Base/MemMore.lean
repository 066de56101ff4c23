import Verif.Base.Mem
/-
More facts about reads and writes of byte ranges.
-/
namespace Verif

theorem wr_take {b : Bytes} {d : Bytes} {off : Nat} (h : off + d.length ≤ b.length) :
    ∃ b', wrRange b off d = .ok b' ∧ b'.length = b.length ∧ b'.take (off + d.length) = b.take off ++ d := by
  refine ⟨_, wrRange_ok h, ?_, ?_⟩
  · simp only [List.length_append, List.length_take, List.length_drop]; omega
  · have : (b.take off ++ d).length = off + d.length := by
      simp only [List.length_append, List.length_take]; omega
    rw [← this, List.take_left]

theorem wr_length {b d : Bytes} {off : Nat} (h : off + d.length ≤ b.length) :
    ∃ b', wrRange b off d = .ok b' ∧ b'.length = b.length := by
  obtain ⟨b', h1, h2, -⟩ := wr_take h
  exact ⟨b', h1, h2⟩

end Verif
