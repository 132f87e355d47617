import Verif.Model.Basic

namespace NT

/-- `src/types.rs:30-32`, `NtfsPosition::new`. -/
def Pos.new (n : Nat) : Pos := if n = 0 then none else some n

/-- `src/types.rs:52-61`, `Add<u64> for NtfsPosition` (also `u16` at 44-50 and `usize` at 63-69,
which widen to `u64` first; `AddAssign` at 71-87 is the same function): wrapping addition, and a
zero sum is no position. -/
def Pos.add (p : Pos) (k : Nat) : Pos :=
  match p with
  | none => none
  | some x => Pos.new ((x + k) % U64)

/-- `src/types.rs:164-172`, `Lcn::checked_add` (LCNs are `u64`, VCNs are `i64`). -/
def Lcn.checkedAdd (lcn : Nat) (vcn : Int) : Option Nat :=
  if 0 ≤ vcn then checkedAddU64 lcn vcn.toNat else checkedSub lcn (negAsU64 vcn)

/-- `src/types.rs:175-181`, `Lcn::position`. The `Ntfs` argument is only used for its cluster
size. -/
def Lcn.position (lcn clusterSize : Nat) : Res Pos :=
  match checkedMulU64 lcn clusterSize with
  | some v => .ok (Pos.new v)
  | none => .err (.lcnTooBig lcn)

/-- `i64::checked_mul`. -/
def checkedMulI64 (a b : Int) : Option Int :=
  if -(I63 : Int) ≤ a * b ∧ a * b < (I63 : Int) then some (a * b) else none

/-- `src/types.rs:214-218`, `Vcn::offset`. -/
def Vcn.offset (vcn : Int) (clusterSize : Nat) : Res Int :=
  match checkedMulI64 vcn clusterSize with
  | some v => .ok v
  | none => .err (.vcnTooBig vcn)

/-- `src/file_reference.rs:14-15`: eight bytes. -/
structure FileRef where
  bytes : Bytes
  deriving DecidableEq, Repr

/-- `src/file_reference.rs:26-28`, `NtfsFileReference::file_record_number`. -/
def FileRef.fileRecordNumber (r : FileRef) : Nat := leNat r.bytes &&& 0xffffffffffff

/-- `src/file_reference.rs:33-35`, `NtfsFileReference::sequence_number`. -/
def FileRef.sequenceNumber (r : FileRef) : Nat := (leNat r.bytes >>> 48) % U16

end NT
