import Verif.Spec.Bytes

/-! Specification of NTFS multi-sector protection ("fixup"). -/

namespace NT.Spec

/-- The last two bytes of sector `i` (512-byte sectors) are `b`. -/
def TailIs (d : Bytes) (i : Nat) (b : Bytes) : Prop := (d.drop (512 * i + 510)).take 2 = b

/-- Index `j` is one of the last two bytes of sector `i`. -/
def InTail (i j : Nat) : Prop := 512 * i + 510 ≤ j ∧ j < 512 * i + 512

/-- Element `i` of the update sequence array at offset `off` (element 0 follows the sequence
number). -/
def arrayElem (d : Bytes) (off i : Nat) : Bytes := (d.drop (off + 2 + 2 * i)).take 2

/-- `disk` is how a record `orig` of `n` sectors is written: the sequence number `usn` at `off`, then
the saved tails of all sectors; every tail is replaced by `usn`; all other bytes are unchanged. -/
structure Protected (orig disk : Bytes) (n off : Nat) (usn : Bytes) : Prop where
  len : orig.length = 512 * n ∧ disk.length = 512 * n
  usnLen : usn.length = 2
  /-- header fields: offset and count (array elements plus the sequence number) -/
  offField : field disk 4 2 = off
  countField : field disk 6 2 = n + 1
  usnAt : (disk.drop off).take 2 = usn
  saved : ∀ i < n, TailIs orig i (arrayElem disk off i)
  tails : ∀ i < n, TailIs disk i usn
  rest : ∀ j, (∀ i < n, ¬ InTail i j) → ¬ (off ≤ j ∧ j < off + 2 + 2 * n) → disk[j]? = orig[j]?
  /-- the array lies in the record and does not touch a sector tail -/
  inside : off + 2 + 2 * n ≤ 512 * n
  apart : ∀ i < n, off + 2 + 2 * n ≤ 512 * i + 510 ∨ 512 * i + 512 ≤ off

end NT.Spec
