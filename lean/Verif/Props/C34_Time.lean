import Verif.Model.Time
import Mathlib.Algebra.Order.Group.Unbundled.Abs
import Mathlib.Algebra.Order.Ring.Int

namespace NT

/-- Nanoseconds between 1601-01-01 and 1970-01-01, from the calendar: 369 years of which 89 are leap
years (134774 days). -/
def Spec.nanos1601 : Int := -(134774 * 86400 * 1000000000)

/-- C34: converting an NT timestamp to a calendar time never panics, and converting back gives the
same timestamp, for all 2^64 values. -/
theorem C34_roundtrip (nt : Nat) (h : nt < U64) :
    ∃ nanos, Time.toOffsetDateTime nt = .ok nanos ∧ nanos = Spec.nanos1601 + 100 * nt ∧
      Time.tryFromOffsetDateTime nanos = .ok nt := by
  refine ⟨Spec.nanos1601 + 100 * nt, ?_, rfl, ?_⟩
  · unfold Time.toOffsetDateTime OFFSET_DATE_TIME_MIN OFFSET_DATE_TIME_MAX
      EPOCH_DIFFERENCE_IN_INTERVALS Spec.nanos1601
    dsimp only
    rw [if_pos (by omega)]
    congr 1
    omega
  · unfold Time.tryFromOffsetDateTime EPOCH_DIFFERENCE_IN_INTERVALS Spec.nanos1601
    dsimp only
    have e : Int.tdiv (-(134774 * 86400 * 1000000000) + 100 * (nt : Int)) 100 =
        (nt : Int) - 116444736000000000 := by
      have : (-(134774 * 86400 * 1000000000) + 100 * (nt : Int)) =
        100 * ((nt : Int) - 116444736000000000) := by omega
      rw [this]
      exact Int.mul_tdiv_cancel_left _ (by decide)
    rw [e, if_pos (by omega)]
    congr 1
    omega

/-- Truncating division by 100, characterised. -/
theorem tdiv_100 (n : Int) : (0 ≤ n → 100 * Int.tdiv n 100 ≤ n ∧ n < 100 * Int.tdiv n 100 + 100) ∧
    (n ≤ 0 → n ≤ 100 * Int.tdiv n 100 ∧ 100 * Int.tdiv n 100 < n + 100) := by
  constructor
  · intro h
    rw [Int.tdiv_eq_ediv_of_nonneg h]; omega
  · intro h
    have : n = -(-n) := by omega
    rw [this, Int.neg_tdiv, Int.tdiv_eq_ediv_of_nonneg (by omega : 0 ≤ -n)]; omega

/-- C34, exact acceptance: a calendar time is accepted iff it is later than 100 ns before
1601-01-01 and earlier than the end of the 64-bit range. The English claim wants `1601 ≤ t`; the code
also accepts the 99 nanoseconds before (`C34_negation`), hence partial. -/
theorem C34_accept_partial (nanos : Int) :
    (∃ nt, Time.tryFromOffsetDateTime nanos = .ok nt) ↔
      Spec.nanos1601 - 100 < nanos ∧ nanos < Spec.nanos1601 + 100 * (U64 : Int) := by
  have h := tdiv_100 nanos
  unfold Time.tryFromOffsetDateTime EPOCH_DIFFERENCE_IN_INTERVALS Spec.nanos1601
  dsimp only
  generalize Int.tdiv nanos 100 = q at h
  split
  · rename_i hq
    refine ⟨fun _ => ?_, fun _ => ⟨_, rfl⟩⟩
    by_cases hn : 0 ≤ nanos <;> omega
  · rename_i hq
    refine ⟨fun ⟨_, hh⟩ => by contradiction, fun _ => ?_⟩
    exfalso
    by_cases hn : 0 ≤ nanos <;> omega

/-- C34, the error: whatever is not accepted is reported as `InvalidTime`; there is no panic. -/
theorem C34_reject (nanos : Int)
    (h : ¬ (Spec.nanos1601 - 100 < nanos ∧ nanos < Spec.nanos1601 + 100 * (U64 : Int))) :
    Time.tryFromOffsetDateTime nanos = .err .invalidTime := by
  rw [← C34_accept_partial] at h
  unfold Time.tryFromOffsetDateTime at *
  dsimp only at *
  split at h
  · exact absurd ⟨_, rfl⟩ h
  · rename_i hq; rw [if_neg hq]

/-- C34: an accepted conversion loses less than 100 ns. -/
theorem C34_precision (nanos : Int) (nt : Nat) (h : Time.tryFromOffsetDateTime nanos = .ok nt) :
    nt < U64 ∧ |nanos - (Spec.nanos1601 + 100 * nt)| < 100 := by
  have ht := tdiv_100 nanos
  unfold Time.tryFromOffsetDateTime EPOCH_DIFFERENCE_IN_INTERVALS at h
  unfold Spec.nanos1601
  dsimp only at h
  generalize Int.tdiv nanos 100 = q at *
  split at h
  · injection h with h
    subst h
    constructor
    · omega
    · by_cases hn : 0 ≤ nanos <;> (rw [abs_lt]; omega)
  · contradiction

/-- C34: later calendar times never get smaller timestamps. -/
theorem C34_monotone (a b : Int) (hab : a ≤ b) (x y : Nat)
    (ha : Time.tryFromOffsetDateTime a = .ok x) (hb : Time.tryFromOffsetDateTime b = .ok y) :
    x ≤ y := by
  have h1 := tdiv_100 a
  have h2 := tdiv_100 b
  unfold Time.tryFromOffsetDateTime EPOCH_DIFFERENCE_IN_INTERVALS at ha hb
  dsimp only at ha hb
  generalize Int.tdiv a 100 = q at *
  generalize Int.tdiv b 100 = r at *
  split at ha <;> split at hb <;> try contradiction
  injection ha with ha; injection hb with hb
  subst ha; subst hb
  by_cases hn : 0 ≤ a <;> by_cases hm : 0 ≤ b <;> omega

/-- C34 is violated as stated: an instant before 1601 (1 ns) is accepted, as timestamp 0. -/
theorem C34_negation :
    ∃ nanos : Int, nanos < Spec.nanos1601 ∧ Time.tryFromOffsetDateTime nanos = .ok 0 :=
  ⟨Spec.nanos1601 - 1, by unfold Spec.nanos1601; omega, by decide⟩

/-- Concrete cases: 2013-01-05 18:15 UTC. -/
example : Time.tryFromOffsetDateTime 1357409700000000000 = .ok 130018833000000000 := by decide
example : ∃ nt, Time.tryFromOffsetDateTime 1357409700000000000 = .ok nt :=
  (C34_accept_partial _).mpr (by unfold Spec.nanos1601; omega)
example : Time.tryFromOffsetDateTime (Spec.nanos1601 - 100) = .err .invalidTime :=
  C34_reject _ (by unfold Spec.nanos1601; omega)

/-- C35, partial: for instants from 1970 on whose timestamp fits into 64 bits, both conversions give
the same timestamp. Missing: instants before 1970 and beyond the 64-bit range, see
`C35_negation_before_1970` and `C35_negation_far_future`. -/
theorem C35_agree_partial (secs nanos : Nat) (hn : nanos < 1000000000)
    (h : secs * 1000000000 + nanos < Spec.nanos1601 + 100 * (U64 : Int)) :
    ∃ nt, Time.tryFromSystemTime (.after secs nanos) = .ok (some nt) ∧
      Time.tryFromOffsetDateTime ((secs * 1000000000 + nanos : Nat) : Int) = .ok nt := by
  unfold Spec.nanos1601 at h
  refine ⟨secs * 10000000 + nanos / 100 + 116444736000000000, ?_, ?_⟩
  · simp only [Time.tryFromSystemTime, INTERVALS_PER_SECOND, EPOCH_DIFFERENCE_IN_INTERVALS]
    rw [if_pos (by omega), if_pos (by omega), if_pos (by omega)]
  · unfold Time.tryFromOffsetDateTime EPOCH_DIFFERENCE_IN_INTERVALS
    dsimp only
    rw [Int.tdiv_eq_ediv_of_nonneg (by omega), if_pos (by omega)]
    congr 1
    omega

/-- C35 is violated before 1970: `SystemTime` is refused, `OffsetDateTime` is accepted (the instant
one second before the Unix epoch). -/
theorem C35_negation_before_1970 :
    Time.tryFromSystemTime .before = .ok none ∧
      ∃ nt, Time.tryFromOffsetDateTime (-1000000000) = .ok nt :=
  ⟨rfl, 116444735990000000, by decide⟩

/-- C35 is violated in the far future: every instant beyond the 64-bit range makes the `SystemTime`
conversion panic, while the `OffsetDateTime` conversion reports an error. -/
theorem C35_negation_far_future (secs nanos : Nat) 
    (h : Spec.nanos1601 + 100 * (U64 : Int) ≤ secs * 1000000000 + nanos) :
    Time.tryFromSystemTime (.after secs nanos) = .panic .overflow ∧
      Time.tryFromOffsetDateTime ((secs * 1000000000 + nanos : Nat) : Int) = .err .invalidTime := by
  constructor
  · unfold Spec.nanos1601 at h
    simp only [Time.tryFromSystemTime, INTERVALS_PER_SECOND, EPOCH_DIFFERENCE_IN_INTERVALS]
    split
    · split
      · rw [if_neg (by omega)]
      · rfl
    · rfl
  · apply C34_reject
    omega

example : ∃ nt, Time.tryFromSystemTime (.after 1357409700 5) = .ok (some nt) ∧
    Time.tryFromOffsetDateTime ((1357409700 * 1000000000 + 5 : Nat) : Int) = .ok nt :=
  C35_agree_partial 1357409700 5 (by omega) (by unfold Spec.nanos1601; omega)
example : Time.tryFromSystemTime (.after 2000000000000 0) = .panic .overflow :=
  (C35_negation_far_future 2000000000000 0 (by unfold Spec.nanos1601; omega)).1

/-! ### The theorems of this file on concrete times -/

example := C34_roundtrip 132000000000000000 (by decide)
example := C34_precision (Spec.nanos1601 + 100 * 132000000000000000 + 7) 132000000000000000 (by decide +kernel)
example := C34_monotone (Spec.nanos1601 + 1200) (Spec.nanos1601 + 1300) (by decide) 12 13 (by decide +kernel) (by decide +kernel)

end NT
