import Verif.Model.Basic

/-! Specification of `Seek::seek` on a file of a given length: the exact integer target. -/

namespace NT.Spec

/-- Where a seek should land, over the integers. -/
def seekTarget (pos len : Nat) : SeekFrom → Int
  | .start n => n
  | .end_ n => len + n
  | .current n => pos + n

/-- `t` is a possible `u64` position. -/
abbrev validTarget (t : Int) : Prop := 0 ≤ t ∧ t < (U64 : Int)

end NT.Spec
