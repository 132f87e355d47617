import Verif.Model.Types

namespace NT

/-- `src/record.rs:24-27`, `struct Record`. -/
structure Record where
  data : Bytes
  position : Pos
  deriving DecidableEq, Repr

/-- `src/record.rs:13`, `NTFS_BLOCK_SIZE`. -/
abbrev NTFS_BLOCK_SIZE : Nat := 512

/-- `src/record.rs:103-107`, `signature`. -/
def Record.signature (r : Record) : Res Bytes := idxRange r.data 0 4

/-- `src/record.rs:140-143`, `update_sequence_offset` (field at offset 4). -/
def Record.usOffset (r : Record) : Res Nat := readLE 2 r.data 4

/-- `src/record.rs:109-120`, `update_sequence_array_count` (field at offset 6). -/
def Record.usArrayCount (r : Record) : Res Nat := do
  let c ← readLE 2 r.data 6
  Res.ofOption (.invalidUpdateSequenceCount r.position c) (checkedSub c 1)

/-- `src/record.rs:122-125`, `update_sequence_array_start`: a `u16` addition. -/
def Record.usArrayStart (r : Record) : Res Nat := do
  let off ← r.usOffset
  if off + 2 < U16 then .ok (off + 2) else .panic .overflow

/-- `src/record.rs:127-138`, `update_sequence_number`. -/
def Record.usNumber (r : Record) : Res Bytes := do
  let start ← r.usOffset
  match getRange r.data start (start + 2) with
  | some b => .ok b
  | none => .err (.invalidUpdateSequenceNumberRange r.position start (start + 2) r.data.length)

/-- `src/record.rs:145-149`, `update_sequence_size`. -/
def Record.usSize (r : Record) : Res Nat := do
  let c ← readLE 2 r.data 6
  pure (c * 2)

/-- `src/record.rs:58-84`: the loop of `fixup`. `n` is the number of array elements left, i.e.
`(array_end - array_position) / 2` (the difference is always even). Returns the record data; on an
error the partly fixed data is dropped, as both callers drop the record. -/
def Record.fixupLoop (position : Pos) (usn : Bytes) :
    Nat → Bytes → Nat → Nat → Res Bytes
  | 0, data, _, _ => .ok data
  | n + 1, data, arrayPosition, sectorPosition => do
    let newBytes ← idxRange data arrayPosition (arrayPosition + 2)
    let cur ← idxRange data sectorPosition (sectorPosition + 2)
    if cur ≠ usn then
      .err (.updateSequenceNumberMismatch (Pos.add position arrayPosition) usn cur)
    else
      Record.fixupLoop position usn n (overwrite data sectorPosition newBytes)
        (arrayPosition + 2) (sectorPosition + NTFS_BLOCK_SIZE)

/-- `src/record.rs:38-87`, `fixup`. -/
def Record.fixup (r : Record) : Res Record := do
  let usn ← r.usNumber
  let arrayCount ← r.usArrayCount
  let arrayPosition ← r.usArrayStart
  let off ← r.usOffset
  let size ← r.usSize
  let arrayEnd := off + size
  let sectorsEnd := arrayCount * NTFS_BLOCK_SIZE
  if arrayEnd > r.data.length ∨ sectorsEnd > r.data.length then
    .err (.updateSequenceArrayExceedsRecordSize r.position arrayCount r.data.length)
  else do
    let data ← Record.fixupLoop r.position usn ((arrayEnd - arrayPosition) / 2) r.data
      arrayPosition (NTFS_BLOCK_SIZE - 2)
    pure { r with data }

end NT
