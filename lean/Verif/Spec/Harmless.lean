import Verif.Spec.Attribute
import Verif.Spec.DataRuns

/-! What the records of a volume have to satisfy so that no operation on the volume panics. Everything here
is about bytes. -/

namespace NT.Spec

/-- The bytes `b` start with a mapping pair of `count` clusters, `delta` clusters away from the cluster number
`prev`; `rest` is what follows. -/
structure Pair (cs : Nat) (b : Bytes) (prev : Nat) (count : Nat) (delta : Int) (rest : Bytes) : Prop where
  pair : ∃ h c, b = h :: c ∧ h ≠ 0 ∧ h.toNat % 16 ≤ 8 ∧ h.toNat / 16 ≤ 8 ∧
    h.toNat % 16 + h.toNat / 16 ≤ c.length ∧ count = leNat (c.take (h.toNat % 16)) ∧
    delta = signedLE ((c.drop (h.toNat % 16)).take (h.toNat / 16)) ∧
    rest = c.drop (h.toNat % 16 + h.toNat / 16)
  size : count * cs < 2 ^ 64
  lcn : 0 ≤ (prev : Int) + delta
  place : ((prev : Int) + delta).toNat * cs < 2 ^ 64

/-- `Stored cs b prev lcn count`: the mapping pairs `b` say that `count` clusters are stored from cluster
`lcn` on. -/
inductive Stored (cs : Nat) : Bytes → Nat → Nat → Nat → Prop
  | here {b rest prev count delta} : Pair cs b prev count delta rest → delta ≠ 0 →
    Stored cs b prev ((prev : Int) + delta).toNat count
  | later {b rest prev count delta lcn count'} : Pair cs b prev count delta rest →
    Stored cs rest ((prev : Int) + delta).toNat lcn count' → Stored cs b prev lcn count'

/-- No stored run of the mapping pairs ends above 2^64. -/
def RunsFit (cs : Nat) (b : Bytes) : Prop :=
  ∀ lcn count, Stored cs b 0 lcn count → lcn * cs + count * cs ≤ 2 ^ 64

/-- An attribute of the record `b` starts at `off`, or the attributes end there. -/
inductive Boundary (b : Bytes) : Nat → Prop
  | first : Boundary b (field b 20 2)
  | next {off len} : Boundary b off → AttrAt b off len → Boundary b (off + len)

/-- Following the entries of an index node from the offset `s`, no entry with a length below 13 is met before
the end, the last entry, or an entry that does not fit. -/
inductive LengthsOk (d : Bytes) (stop : Nat) : Nat → Prop
  | done {s : Nat} (h : stop ≤ s) : LengthsOk d stop s
  | cut {s : Nat} (h : d.length < s + 16 ∨ d.length < s + field d (s + 8) 2) : LengthsOk d stop s
  | last {s : Nat} (h : 13 ≤ field d (s + 8) 2) (hl : field d (s + 12) 1 / 2 % 2 = 1) : LengthsOk d stop s
  | more {s : Nat} (h : 13 ≤ field d (s + 8) 2) (hn : LengthsOk d stop (s + field d (s + 8) 2)) :
      LengthsOk d stop s

/-- The index root `r` names a usable size of index records, its entries do not start behind their end, and
they have the lengths of entries. -/
structure RootOk (r : Bytes) : Prop where
  size : 37 ≤ field r 8 4 ∧ field r 8 4 < 65536
  order : field r 16 4 ≤ field r 20 4
  entries : LengthsOk ((r.drop (16 + field r 16 4)).take (field r 20 4 - field r 16 4))
    (field r 20 4 - field r 16 4) 0

/-- The same for an index record after the fixup; its sizes do not overflow 32 bits. What the library refuses
anyway does not matter. -/
structure NodeOk (d : Bytes) : Prop where
  allocated : 24 + field d 32 4 < 2 ^ 32
  used : 24 + field d 32 4 ≤ d.length → 24 + field d 28 4 < 2 ^ 32
  order : field d 28 4 ≤ field d 32 4 → 24 + field d 32 4 ≤ d.length → field d 24 4 ≤ field d 28 4
  entries : field d 28 4 ≤ field d 32 4 → 24 + field d 32 4 ≤ d.length →
    LengthsOk d (24 + field d 28 4) (24 + field d 24 4)

/-- The bytes of the value of the resident attribute at `off`. -/
def residentBytes (b : Bytes) (off : Nat) : Bytes :=
  (b.drop (off + field b (off + 20) 2)).take (field b (off + 16) 4)

/-- The attribute of `len` bytes at `off` is none of those that make the library panic. -/
structure AttrOk (cs : Nat) (b : Bytes) (off len : Nat) : Prop where
  /-- a resident attribute has its header -/
  resident : field b (off + 8) 1 = 0 → off + 22 ≤ b.length
  /-- a non-resident attribute has its header -/
  nonResident : field b (off + 8) 1 ≠ 0 → off + 56 ≤ b.length
  /-- and its runs end at or below 2^64 -/
  runs : field b (off + 8) 1 ≠ 0 →
    RunsFit cs ((b.drop (off + field b (off + 32) 2)).take (len - field b (off + 32) 2))
  /-- an index root that the library does not refuse is sound -/
  root : field b off 4 = 0x90 → field b (off + 8) 1 = 0 → 32 ≤ (residentBytes b off).length →
    16 + field (residentBytes b off) 16 4 < (residentBytes b off).length →
    16 + field (residentBytes b off) 20 4 ≤ (residentBytes b off).length → RootOk (residentBytes b off)

/-- Every attribute of a record is like this. -/
def RecordOk (cs : Nat) (b : Bytes) : Prop :=
  ∀ off len, Boundary b off → AttrAt b off len → AttrOk cs b off len

end NT.Spec
