import Verif.Model.Basic

namespace NT

/-- `src/time.rs:15`. -/
abbrev EPOCH_DIFFERENCE_IN_INTERVALS : Nat := 116444736000000000
/-- `src/time.rs:19`. -/
abbrev INTERVALS_PER_SECOND : Nat := 10000000

/-- `src/time.rs:40-49`, `NtfsTime::try_from(OffsetDateTime)`. The argument is the value of
`dt.unix_timestamp_nanos()` (an `i128`); `OffsetDateTime` itself is external. Division truncates
toward zero as in Rust. -/
def Time.tryFromOffsetDateTime (nanosSinceUnixEpoch : Int) : Res Nat :=
  let intervalsSinceUnixEpoch := Int.tdiv nanosSinceUnixEpoch 100
  let intervalsSinceWindowsEpoch := intervalsSinceUnixEpoch + (EPOCH_DIFFERENCE_IN_INTERVALS : Int)
  if 0 ≤ intervalsSinceWindowsEpoch ∧ intervalsSinceWindowsEpoch < (U64 : Int) then
    .ok intervalsSinceWindowsEpoch.toNat
  else .err .invalidTime

/-- Smallest and largest `unix_timestamp_nanos` that `OffsetDateTime::from_unix_timestamp_nanos`
accepts (crate `time`, feature `large-dates`, years -999999 to 999999). Part of the trusted base:
the `time` crate is external. -/
abbrev OFFSET_DATE_TIME_MIN : Int := -31619087596800 * 1000000000
abbrev OFFSET_DATE_TIME_MAX : Int := 31494784780800 * 1000000000 - 1

/-- `src/time.rs:55-62`, `OffsetDateTime::from(NtfsTime)`: the resulting `unix_timestamp_nanos`. The
`unwrap` panics when the external constructor refuses the value. -/
def Time.toOffsetDateTime (nt : Nat) : Res Int :=
  let intervalsSinceUnixEpoch := (nt : Int) - (EPOCH_DIFFERENCE_IN_INTERVALS : Int)
  let nanos := intervalsSinceUnixEpoch * 100
  if OFFSET_DATE_TIME_MIN ≤ nanos ∧ nanos ≤ OFFSET_DATE_TIME_MAX then .ok nanos else .panic .unwrap

/-- A `SystemTime`, seen through `duration_since(UNIX_EPOCH)`: whole seconds and nanoseconds after
the Unix epoch, or a time before it. -/
inductive SysTime
  | before
  | after (secs : Nat) (nanos : Nat)
  deriving DecidableEq, Repr

/-- `src/time.rs:70-78`, `NtfsTime::try_from(SystemTime)`: `none` is the `SystemTimeError` for a
time before 1970. Unchecked `u64` arithmetic panics on overflow. -/
def Time.tryFromSystemTime : SysTime → Res (Option Nat)
  | .before => .ok none
  | .after secs nanos =>
    if secs * INTERVALS_PER_SECOND < U64 then
      if secs * INTERVALS_PER_SECOND + nanos / 100 < U64 then
        if secs * INTERVALS_PER_SECOND + nanos / 100 + EPOCH_DIFFERENCE_IN_INTERVALS < U64 then
          .ok (some (secs * INTERVALS_PER_SECOND + nanos / 100 + EPOCH_DIFFERENCE_IN_INTERVALS))
        else .panic .overflow
      else .panic .overflow
    else .panic .overflow

end NT
