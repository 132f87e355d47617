import Verif.Spec.Bytes

/-! Specification of how attributes are laid out in a file record. All numbers are plain record
offsets. -/

namespace NT.Spec

/-- A well-sized attribute of `len` bytes (header included) starts at `off`. -/
structure AttrAt (d : Bytes) (off len : Nat) : Prop where
  /-- not the end marker -/
  ty : field d off 4 ≠ 0xFFFFFFFF
  length : field d (off + 4) 4 = len
  header : 16 ≤ len
  inside : off + len ≤ d.length

/-- `offs` are the offsets of consecutive attributes: the first one starts at `off`, every following
one starts where the previous one ends, and the last one ends at `fin`. -/
inductive Chain (d : Bytes) : Nat → List Nat → Nat → Prop
  | nil (off : Nat) : Chain d off [] off
  | cons {off len fin : Nat} {offs : List Nat} (h : AttrAt d off len)
      (t : Chain d (off + len) offs fin) : Chain d off (off :: offs) fin

/-- The chain of attributes ends properly at `fin`: there is an end marker, or fewer than four bytes
are left. -/
def EndsAt (d : Bytes) (fin : Nat) : Prop :=
  fin + 4 ≤ d.length → field d fin 4 = 0xFFFFFFFF

/-- The attribute at `off` has the name with UTF-16 code units `s`: its name offset and name length
fields describe these bytes inside the attribute (a zero offset or length means an empty name). -/
def NameIs (d : Bytes) (off : Nat) (s : List Nat) : Prop :=
  let start := field d (off + 10) 2
  let count := field d (off + 9) 1
  (∀ x ∈ s, x < U16) ∧
  if start = 0 ∨ count = 0 then s = []
  else start + 2 * count ≤ field d (off + 4) 4 ∧
    (d.drop (off + start)).take (2 * count) = s.flatMap (leBytes 2)

/-- The attribute at `off` is what a lookup by type code, optional instance number and optional name
asks for. -/
structure Wanted (d : Bytes) (off : Nat) (code : Nat) (name : Option (List Nat)) (inst : Option Nat) :
    Prop where
  ty : field d off 4 = code
  inst : ∀ i, inst = some i → field d (off + 14) 2 = i
  name : ∀ s, name = some s → NameIs d off s

/-- The attribute at `off` is sound as far as the lookup needs it (a type code in `known`, and a valid
name if type and instance are as requested), but not the requested one. -/
def NotWanted (d : Bytes) (off : Nat) (known : List Nat) (code : Nat) (name : Option (List Nat))
    (inst : Option Nat) : Prop :=
  field d off 4 ∈ known ∧
    (field d off 4 ≠ code ∨ (∃ i, inst = some i ∧ field d (off + 14) 2 ≠ i) ∨
      ∃ s s', name = some s ∧ NameIs d off s' ∧ s' ≠ s)

/-- All attribute type codes. -/
def typeCodes : List Nat :=
  [0x10, 0x20, 0x30, 0x40, 0x50, 0x60, 0x70, 0x80, 0x90, 0xA0, 0xB0, 0xC0, 0xD0, 0xE0, 0xF0, 0x100,
   0xFFFFFFFF]

end NT.Spec
