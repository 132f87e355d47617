import Verif.Model.Types

namespace NT

/-- C37: `Lcn::checked_add` is exact addition, and fails iff the sum is not a `u64`. -/
theorem C37_lcn_add (lcn : Nat) (vcn : Int) (r : Option Nat) (hr : Lcn.checkedAdd lcn vcn = r)
    (hl : lcn < U64) (hv : -(I63 : Int) ≤ vcn ∧ vcn < (I63 : Int)) :
    (∀ x, r = some x → (x : Int) = lcn + vcn ∧ x < U64) ∧
    (r = none ↔ lcn + vcn < 0 ∨ (U64 : Int) ≤ lcn + vcn) := by
  subst hr
  unfold Lcn.checkedAdd checkedAddU64 checkedSub negAsU64
  constructor
  · intro x
    split <;> split <;> simp <;> omega
  · split <;> split <;> simp <;> omega

/-- C37: `Lcn::position` is `lcn * cluster_size`, absent for LCN 0, and fails iff that is not a
`u64`. -/
theorem C37_lcn_position (lcn cs : Nat) :
    Lcn.position lcn cs =
      if lcn * cs < U64 then .ok (if lcn * cs = 0 then none else some (lcn * cs))
      else .err (.lcnTooBig lcn) := by
  unfold Lcn.position checkedMulU64 Pos.new
  by_cases h : lcn * cs < U64
  · rw [if_pos h, if_pos h]
  · rw [if_neg h, if_neg h]

/-- C37: `Vcn::offset` is `vcn * cluster_size` exactly, and fails iff that is not an `i64`. -/
theorem C37_vcn_offset (vcn : Int) (cs : Nat) :
    Vcn.offset vcn cs =
      if -(2 : Int) ^ 63 ≤ vcn * cs ∧ vcn * cs < (2 : Int) ^ 63 then .ok (vcn * cs)
      else .err (.vcnTooBig vcn) := by
  unfold Vcn.offset checkedMulI64
  have : ((2 : Int) ^ 63) = 9223372036854775808 := by decide
  rw [this]
  by_cases h : -(I63 : Int) ≤ vcn * cs ∧ vcn * cs < (I63 : Int)
  · rw [if_pos h, if_pos h]
  · rw [if_neg h, if_neg h]

/-- C37: adding to an absent position stays absent; adding to a position is exact when the sum
is a `u64`. -/
theorem C37_position_add (p : Pos) (k : Nat) :
    (p = none → Pos.add p k = none) ∧
    (∀ x, p = some x → 0 < x → x + k < U64 → Pos.add p k = some (x + k)) := by
  constructor
  · rintro rfl; rfl
  · rintro x rfl hx hk
    simp only [Pos.add, Pos.new]
    rw [Nat.mod_eq_of_lt hk]
    split
    · omega
    · rfl

/-- Concrete cases, including `i64::MIN`. -/
example : Lcn.checkedAdd 100 (-(I63 : Int)) = none :=
  (C37_lcn_add 100 _ _ rfl (by omega) (by omega)).2.mpr (by omega)
example : ∀ x, Lcn.checkedAdd 9223372036854775809 (-(I63 : Int)) = some x → (x : Int) = 1 := fun x h =>
  ((C37_lcn_add _ _ _ rfl (by omega) (by omega)).1 x h).1.trans (by omega)
example : Lcn.checkedAdd 9223372036854775809 (-(I63 : Int)) = some 1 := by decide
example : Lcn.position 4 4096 = .ok (some 16384) := C37_lcn_position 4 4096
example : Vcn.offset (-2) 4096 = .ok (-8192) := C37_vcn_offset (-2) 4096
example : Pos.add (some 4096) 24 = some 4120 :=
  (C37_position_add (some 4096) 24).2 4096 rfl (by omega) (by omega)

end NT
