import Verif.Spec.DataRuns

/-! Specification of the contents of an attribute list. -/

namespace NT.Spec

/-- One entry of an attribute list: the attribute type code, the lowest VCN of the attribute, the
file reference (sequence number above 48 bits of record number), the instance number of the attribute
in that record and the UTF-16 code units of its name. -/
structure LEntry where
  ty : Nat
  vcn : Int
  ref : Nat
  inst : Nat
  name : List Nat
  deriving DecidableEq, Repr

/-- The fields fit their widths. -/
structure LEntry.Fits (e : LEntry) : Prop where
  ty : e.ty < U32
  vcn : -(I63 : Int) ≤ e.vcn ∧ e.vcn < (I63 : Int)
  ref : e.ref < U64
  inst : e.inst < U16
  count : e.name.length < 256
  units : ∀ x ∈ e.name, x < U16

/-- The size of an entry on disk with `pad` bytes behind the name. -/
def LEntry.size (e : LEntry) (pad : Nat) : Nat := 26 + 2 * e.name.length + pad

/-- An entry on disk: a header of 26 bytes, the name directly behind it (as its offset field says),
and padding. -/
def LEntry.encode (e : LEntry) (pad : Bytes) : Bytes :=
  leBytes 4 e.ty ++ leBytes 2 (e.size pad.length) ++ leBytes 1 e.name.length ++ leBytes 1 26 ++
    sleBytes 8 e.vcn ++ leBytes 8 e.ref ++ leBytes 2 e.inst ++ e.name.flatMap (leBytes 2) ++ pad

/-- `b` consists of the entries `es`, one after the other, with any padding. -/
inductive ListEncodes : List LEntry → Bytes → Prop
  | nil : ListEncodes [] []
  | cons (e : LEntry) (pad : Bytes) (es : List LEntry) (rest : Bytes) :
      e.Fits → e.size pad.length < U16 → ListEncodes es rest →
      ListEncodes (e :: es) (e.encode pad ++ rest)

end NT.Spec
