/-
Basic vocabulary of the model: byte strings, little-endian decoding, results, errors.
-/

namespace NT

/-- Byte strings (`&[u8]`, `Vec<u8>`). -/
abbrev Bytes := List UInt8

/-- 2^64, the size of the `u64`/`usize` range (64-bit targets). -/
notation "U64" => 18446744073709551616
/-- 2^63, the size of the nonnegative half of the `i64` range. -/
notation "I63" => 9223372036854775808
/-- 2^32, the size of the `u32` range. -/
notation "U32" => 4294967296
/-- 2^16, the size of the `u16` range. -/
notation "U16" => 65536

/-- `src/attribute.rs:115-168`, enum `NtfsAttributeType`. -/
inductive AttrType
  | standardInformation | attributeList | fileName | objectId | securityDescriptor
  | volumeName | volumeInformation | data | indexRoot | indexAllocation | bitmap
  | reparsePoint | eaInformation | ea | propertySet | loggedUtilityStream | end_
  deriving DecidableEq, Repr

/-- The kinds of `std::io::Error` that occur. `other` stands for every other kind, with a code to
tell them apart. Simplification: an `NtfsError` wrapped into an `io::Error` by
`src/error.rs:247-257` becomes `other 0` (the payload is dropped). -/
inductive IoErr
  | interrupted | unexpectedEof | invalidInput | other (code : Nat)
  deriving DecidableEq, Repr

/-- `src/types.rs:25`, `NtfsPosition(Option<NonZeroU64>)`: `none`, or a nonzero `u64`. -/
abbrev Pos := Option Nat

/-- `src/error.rs:18-228`, enum `NtfsError`, with all fields. Simplification: the constant
`expected` signature fields (always the same literal) are left out. -/
inductive Err
  | attributeNotFound (position : Pos) (ty : AttrType)
  | attributeOfDifferentType (position : Pos) (expected actual : AttrType)
  | invalidAttributeLength (position : Pos) (expected actual : Nat)
  | invalidAttributeNameLength (position : Pos) (expected actual : Nat)
  | invalidAttributeNameOffset (position : Pos) (expected actual : Nat)
  | invalidByteCountInDataRunHeader (position : Pos) (expected actual : Nat)
  | invalidClusterCountInDataRunHeader (position : Pos) (clusterCount : Nat)
  | invalidFileAllocatedSize (position : Pos) (expected actual : Nat)
  | invalidFileRecordNumber (n : Nat)
  | invalidFileSignature (position : Pos) (actual : Bytes)
  | invalidFileUsedSize (position : Pos) (expected actual : Nat)
  | invalidIndexAllocatedSize (position : Pos) (expected actual : Nat)
  | invalidIndexEntryDataRange (position : Pos) (start stop : Nat) (size : Nat)
  | invalidIndexEntrySize (position : Pos) (expected actual : Nat)
  | invalidIndexRootEntriesOffset (position : Pos) (expected actual : Nat)
  | invalidIndexRootUsedSize (position : Pos) (expected actual : Nat)
  | invalidIndexSignature (position : Pos) (actual : Bytes)
  | invalidIndexUsedSize (position : Pos) (expected actual : Nat)
  | invalidMftLcn
  | invalidNonResidentValueDataRange (position : Pos) (start stop : Nat) (size : Nat)
  | invalidResidentAttributeValueLength (position : Pos) (length offset actual : Nat)
  | invalidResidentAttributeValueOffset (position : Pos) (expected actual : Nat)
  | invalidRecordSizeInfo (sizeInfo : Int) (clusterSize : Nat)
  | invalidSectorsPerCluster (sectorsPerCluster : Nat)
  | invalidStructuredValueSize (position : Pos) (ty : AttrType) (expected actual : Nat)
  | invalidTime
  | invalidTwoByteSignature (actual : Bytes)
  | invalidUpcaseTableSize (expected actual : Nat)
  | invalidUpdateSequenceCount (position : Pos) (count : Nat)
  | invalidUpdateSequenceNumberRange (position : Pos) (start stop : Nat) (size : Nat)
  | invalidVcnInDataRunHeader (position : Pos) (vcn : Int) (previousLcn : Nat)
  | io (e : IoErr)
  | lcnTooBig (lcn : Nat)
  | missingIndexAllocation (position : Pos)
  | notADirectory (position : Pos)
  | totalSectorsTooBig (totalSectors : Nat)
  | unexpectedAttributeListAttribute (position : Pos)
  | unexpectedNonResidentAttribute (position : Pos)
  | unexpectedResidentAttribute (position : Pos)
  | unsupportedAttributeType (position : Pos) (actual : Nat)
  | unsupportedClusterSize (min max actual : Nat)
  | unsupportedFileNamespace (position : Pos) (actual : Nat)
  | unsupportedSectorSize (min max actual : Nat)
  | updateSequenceArrayExceedsRecordSize (position : Pos) (arrayCount recordSize : Nat)
  | updateSequenceNumberMismatch (position : Pos) (expected actual : Bytes)
  | vcnMismatchInIndexAllocation (position : Pos) (expected actual : Int)
  | vcnOutOfBoundsInIndexAllocation (position : Pos) (vcn : Int)
  | vcnTooBig (vcn : Int)
  deriving DecidableEq, Repr

/-- Reasons for a Rust panic. -/
inductive Panic
  | slice      -- slice index out of range
  | overflow   -- arithmetic overflow (overflow checks on)
  | unwrap     -- `unwrap`/`expect` on `None`/`Err`
  | assert     -- failing `assert!`/`debug_assert!`
  deriving DecidableEq, Repr

/-- Outcome of a Rust function returning `Result<α, NtfsError>`: a value, an error, a panic, or
(only for loops run with too little fuel) no result yet. -/
inductive Res (α : Type) where
  | ok (a : α)
  | err (e : Err)
  | panic (p : Panic)
  | diverge
  deriving DecidableEq, Repr

namespace Res

/-- The `?` operator. -/
def bind {α β : Type} (x : Res α) (f : α → Res β) : Res β :=
  match x with
  | .ok a => f a
  | .err e => .err e
  | .panic p => .panic p
  | .diverge => .diverge

instance : Monad Res where
  pure := Res.ok
  bind := Res.bind

/-- The outcome is neither a panic nor a missing result. -/
def Safe {α : Type} : Res α → Prop
  | .ok _ => True
  | .err _ => True
  | .panic _ => False
  | .diverge => False

/-- `Option::ok_or`. -/
def ofOption {α : Type} (e : Err) : Option α → Res α
  | some a => .ok a
  | none => .err e

@[simp] theorem pure_eq {α : Type} (a : α) : (pure a : Res α) = .ok a := rfl
@[simp] theorem bind_ok {α β : Type} (a : α) (f : α → Res β) : (Res.ok a >>= f) = f a := rfl
@[simp] theorem bind_err {α β : Type} (e : Err) (f : α → Res β) : (Res.err e >>= f) = .err e := rfl
@[simp] theorem bind_panic {α β : Type} (p : Panic) (f : α → Res β) :
    (Res.panic p >>= f) = .panic p := rfl
@[simp] theorem bind_diverge {α β : Type} (f : α → Res β) : (Res.diverge >>= f) = .diverge := rfl

theorem bind_eq_ok {α β : Type} {x : Res α} {f : α → Res β} {b : β} :
    (x >>= f) = .ok b ↔ ∃ a, x = .ok a ∧ f a = .ok b := by
  cases x <;> simp

@[simp] theorem safe_ok {α : Type} (a : α) : Safe (.ok a) := trivial
@[simp] theorem safe_err {α : Type} (e : Err) : Safe (.err e : Res α) := trivial
@[simp] theorem safe_panic {α : Type} (p : Panic) : ¬ Safe (.panic p : Res α) := id
@[simp] theorem safe_diverge {α : Type} : ¬ Safe (.diverge : Res α) := id

theorem safe_bind {α β : Type} {x : Res α} {f : α → Res β} (hx : Safe x)
    (hf : ∀ a, x = .ok a → Safe (f a)) : Safe (x >>= f) := by
  cases x with
  | ok a => exact hf a rfl
  | err e => trivial
  | panic p => exact hx.elim
  | diverge => exact hx.elim

end Res

/-- State-passing computations: models `&mut` state together with `?`. When an error or panic is
raised, the state at that point is kept, as in Rust. -/
def StM (σ α : Type) := σ → Res α × σ

namespace StM

def bind {σ α β : Type} (x : StM σ α) (f : α → StM σ β) : StM σ β := fun s =>
  match x s with
  | (.ok a, s') => f a s'
  | (.err e, s') => (.err e, s')
  | (.panic p, s') => (.panic p, s')
  | (.diverge, s') => (.diverge, s')

instance {σ : Type} : Monad (StM σ) where
  pure a := fun s => (.ok a, s)
  bind := StM.bind

/-- A computation that neither reads nor changes the state. -/
def lift {σ α : Type} (x : Res α) : StM σ α := fun s => (x, s)

def get {σ : Type} : StM σ σ := fun s => (.ok s, s)
def set {σ : Type} (s : σ) : StM σ Unit := fun _ => (.ok (), s)
def fail {σ α : Type} (e : Err) : StM σ α := fun s => (.err e, s)
def die {σ α : Type} (p : Panic) : StM σ α := fun s => (.panic p, s)

theorem bind_apply {σ α β : Type} (x : StM σ α) (f : α → StM σ β) (s : σ) :
    (x >>= f) s = match x s with
      | (.ok a, s') => f a s'
      | (.err e, s') => (.err e, s')
      | (.panic p, s') => (.panic p, s')
      | (.diverge, s') => (.diverge, s') := rfl
@[simp] theorem pure_apply {σ α : Type} (a : α) (s : σ) : (pure a : StM σ α) s = (.ok a, s) := rfl
@[simp] theorem lift_apply {σ α : Type} (x : Res α) (s : σ) : (lift x : StM σ α) s = (x, s) := rfl
@[simp] theorem get_apply {σ : Type} (s : σ) : (get : StM σ σ) s = (.ok s, s) := rfl
@[simp] theorem set_apply {σ : Type} (s t : σ) : (set t : StM σ Unit) s = (.ok (), t) := rfl
@[simp] theorem fail_apply {σ α : Type} (e : Err) (s : σ) : (fail e : StM σ α) s = (.err e, s) := rfl
@[simp] theorem die_apply {σ α : Type} (p : Panic) (s : σ) :
    (die p : StM σ α) s = (.panic p, s) := rfl

theorem bind_of_ok {σ α β : Type} {x : StM σ α} {f : α → StM σ β} {s s' : σ} {a : α}
    (h : x s = (.ok a, s')) : (x >>= f) s = f a s' := by
  rw [bind_apply, h]
theorem bind_of_err {σ α β : Type} {x : StM σ α} {f : α → StM σ β} {s s' : σ} {e : Err}
    (h : x s = (.err e, s')) : (x >>= f) s = (.err e, s') := by
  rw [bind_apply, h]

end StM

/-- Little-endian value of a byte string (`from_le_bytes`, `LittleEndian::read_uN`). -/
def leNat : Bytes → Nat
  | [] => 0
  | b :: bs => b.toNat + 256 * leNat bs

/-- `d.get(a..b)` on a slice. -/
def getRange (d : Bytes) (a b : Nat) : Option Bytes :=
  if a ≤ b ∧ b ≤ d.length then some ((d.drop a).take (b - a)) else none

/-- `d[a..b]`: panics when out of range. -/
def idxRange (d : Bytes) (a b : Nat) : Res Bytes :=
  match getRange d a b with
  | some x => .ok x
  | none => .panic .slice

/-- `d[i]`: panics when out of range. -/
def idxByte (d : Bytes) (i : Nat) : Res Nat :=
  match d[i]? with
  | some x => .ok x.toNat
  | none => .panic .slice

/-- `LittleEndian::read_uN(&d[a..])` with `N = 8 * n`: panics when fewer than `n` bytes follow. -/
def readLE (n : Nat) (d : Bytes) (a : Nat) : Res Nat :=
  if a + n ≤ d.length then .ok (leNat ((d.drop a).take n)) else .panic .slice

/-- Reinterpretation of a `u64` as an `i64` (`as i64`, `LittleEndian::read_i64`). -/
def toI64 (n : Nat) : Int := if n < I63 then (n : Int) else (n : Int) - U64

/-- Reinterpretation of a `u8` as an `i8`. -/
def toI8 (n : Nat) : Int := if n < 128 then (n : Int) else (n : Int) - 256

/-- `n.wrapping_neg() as u64` for a negative `i64` `n` (exact also for `i64::MIN`). -/
abbrev negAsU64 (n : Int) : Nat := n.natAbs

/-- `u64::checked_add`. -/
def checkedAddU64 (a b : Nat) : Option Nat := if a + b < U64 then some (a + b) else none

/-- `checked_sub` on unsigned integers. -/
def checkedSub (a b : Nat) : Option Nat := if b ≤ a then some (a - b) else none

/-- `u64::checked_mul`. -/
def checkedMulU64 (a b : Nat) : Option Nat := if a * b < U64 then some (a * b) else none

/-- Overwrites `buf` with `bytes` starting at index `i` (`buf[i..].copy_from_slice(..)`). -/
def overwrite (buf : Bytes) (i : Nat) (bytes : Bytes) : Bytes :=
  buf.take i ++ bytes ++ buf.drop (i + bytes.length)

/-- `std::io::SeekFrom`. -/
inductive SeekFrom
  | start (n : Nat)
  | end_ (n : Int)
  | current (n : Int)
  deriving DecidableEq, Repr

/-- Arguments that the Rust type can hold: `Start(u64)`, `End(i64)`, `Current(i64)`. -/
def SeekFrom.InRange : SeekFrom → Prop
  | .start n => n < U64
  | .end_ n => -(I63 : Int) ≤ n ∧ n < (I63 : Int)
  | .current n => -(I63 : Int) ≤ n ∧ n < (I63 : Int)

instance (s : SeekFrom) : Decidable s.InRange := by
  cases s <;> simp only [SeekFrom.InRange] <;> infer_instance

end NT
