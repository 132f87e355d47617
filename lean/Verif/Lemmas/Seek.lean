import Verif.Model.Seek
import Verif.Spec.Seek

namespace NT

open Spec

theorem seekContiguous_spec (pos len : Nat) (s : SeekFrom) (hs : s.InRange) (hp : pos < U64)
    (hl : len < U64) :
    seekContiguous pos len s =
      if validTarget (seekTarget pos len s) then
        (.ok (seekTarget pos len s).toNat, (seekTarget pos len s).toNat)
      else (.err (.io .invalidInput), pos) := by
  cases s with
  | start n =>
    simp only [SeekFrom.InRange] at hs
    have h : validTarget (seekTarget pos len (.start n)) := by
      simp only [validTarget, seekTarget]; omega
    rw [if_pos h]
    simp [seekContiguous, seekTarget]
  | end_ n =>
    simp only [SeekFrom.InRange] at hs
    simp only [seekContiguous, checkedAddU64, checkedSub, negAsU64]
    by_cases hn : 0 ≤ n
    · simp only [if_pos hn]
      by_cases hv : len + n.toNat < U64
      · have h : validTarget (seekTarget pos len (.end_ n)) := by
          simp only [validTarget, seekTarget]; omega
        rw [if_pos hv, if_pos h]
        have : len + n.toNat = (seekTarget pos len (.end_ n)).toNat := by
          simp only [seekTarget]; omega
        simp [this]
      · have h : ¬ validTarget (seekTarget pos len (.end_ n)) := by
          simp only [validTarget, seekTarget]; omega
        rw [if_neg hv, if_neg h]
    · simp only [if_neg hn]
      by_cases hv : n.natAbs ≤ len
      · have h : validTarget (seekTarget pos len (.end_ n)) := by
          simp only [validTarget, seekTarget]; omega
        rw [if_pos hv, if_pos h]
        have : len - n.natAbs = (seekTarget pos len (.end_ n)).toNat := by
          simp only [seekTarget]; omega
        simp [this]
      · have h : ¬ validTarget (seekTarget pos len (.end_ n)) := by
          simp only [validTarget, seekTarget]; omega
        rw [if_neg hv, if_neg h]
  | current n =>
    simp only [SeekFrom.InRange] at hs
    simp only [seekContiguous, checkedAddU64, checkedSub, negAsU64]
    by_cases hn : 0 ≤ n
    · simp only [if_pos hn]
      by_cases hv : pos + n.toNat < U64
      · have h : validTarget (seekTarget pos len (.current n)) := by
          simp only [validTarget, seekTarget]; omega
        rw [if_pos hv, if_pos h]
        have : pos + n.toNat = (seekTarget pos len (.current n)).toNat := by
          simp only [seekTarget]; omega
        simp [this]
      · have h : ¬ validTarget (seekTarget pos len (.current n)) := by
          simp only [validTarget, seekTarget]; omega
        rw [if_neg hv, if_neg h]
    · simp only [if_neg hn]
      by_cases hv : n.natAbs ≤ pos
      · have h : validTarget (seekTarget pos len (.current n)) := by
          simp only [validTarget, seekTarget]; omega
        rw [if_pos hv, if_pos h]
        have : pos - n.natAbs = (seekTarget pos len (.current n)).toNat := by
          simp only [seekTarget]; omega
        simp [this]
      · have h : ¬ validTarget (seekTarget pos len (.current n)) := by
          simp only [validTarget, seekTarget]; omega
        rw [if_neg hv, if_neg h]

theorem seekContiguous_lt {pos len : Nat} {s : SeekFrom} (hs : s.InRange) (hp : pos < U64)
    (hl : len < U64) : (seekContiguous pos len s).2 < U64 := by
  rw [seekContiguous_spec pos len s hs hp hl]
  split
  · rename_i h; simp only [validTarget] at h; dsimp only; omega
  · exact hp

end NT
