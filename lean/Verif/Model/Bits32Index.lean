import Verif.Model.Index

/-! The places of the entries in an index node on a target whose `usize` has 32 bits. There the additions of
`entries_range_and_position` can overflow: a debug build stops, a release build wraps around. -/

namespace NT

/-- Addition of two `usize` with 32 bits, in a release build or not (`src/structured_values/index_root.rs:83-84`,
`src/index_record.rs:96-97`). -/
def add32 (release : Bool) (a b : Nat) : Res Nat :=
  if a + b < U32 then .ok (a + b) else if release then .ok ((a + b) % U32) else .panic .overflow

/-- `src/structured_values/index_root.rs:82-88`, `entries_range_and_position`. -/
def IndexRoot.entriesRange32 (release : Bool) (r : IndexRoot) : Res (Nat × Nat × Pos) := do
  let o ← r.entriesOffset
  let start ← add32 release 16 o
  let u ← r.dataSize
  let stop ← add32 release 16 u
  pure (start, stop, Pos.add r.position start)

/-- `src/structured_values/index_root.rs:137-157`, `validate_sizes`. -/
def IndexRoot.validateSizes32 (release : Bool) (r : IndexRoot) : Res Unit := do
  let (start, stop, _) ← r.entriesRange32 release
  if start ≥ r.slice.length then
    .err (.invalidIndexRootEntriesOffset r.position start r.slice.length)
  else if stop > r.slice.length then
    .err (.invalidIndexRootUsedSize r.position stop r.slice.length)
  else .ok ()

/-- `src/structured_values/index_root.rs:55-69`, `new`. -/
def IndexRoot.new32 (release : Bool) (slice : Bytes) (position : Pos) : Res IndexRoot :=
  if slice.length < 32 then
    .err (.invalidStructuredValueSize position .indexRoot 16 slice.length)
  else do
    let r : IndexRoot := { slice, position }
    r.validateSizes32 release
    pure r

/-- `src/structured_values/index_root.rs:72-80`, `entries`. -/
def IndexRoot.entries32 (release : Bool) (r : IndexRoot) : Res NodeEntries := do
  let (start, stop, position) ← r.entriesRange32 release
  let slice ← idxRange r.slice start stop
  pure { slice, position }

/-- `src/structured_values/index_root.rs:90-99`, `entry_ranges`. The `debug_assert!` holds, the end is the length. -/
def IndexRoot.entryRanges32 (release : Bool) (r : IndexRoot) : Res NodeRanges := do
  let (start, stop, position) ← r.entriesRange32 release
  let data ← idxRange r.slice start stop
  NodeRanges.new data 0 data.length position

/-- `src/index_record.rs:95-101`, `entries_range_and_position`. -/
def IndexRecord.entriesRange32 (release : Bool) (r : IndexRecord) : Res (Nat × Nat × Pos) := do
  let o ← r.entriesOffset
  let start ← add32 release 24 o
  let u ← r.dataSize
  let stop ← add32 release 24 u
  pure (start, stop, Pos.add r.record.position start)

/-- `src/index_record.rs:85-93`, `entries`. -/
def IndexRecord.entries32 (release : Bool) (r : IndexRecord) : Res NodeEntries := do
  let (start, stop, position) ← r.entriesRange32 release
  let slice ← idxRange r.record.data start stop
  pure { slice, position }

/-- `src/index_record.rs:128-134`, `into_entry_ranges`; the `debug_assert!` (`src/index_entry.rs:316`) counts in a debug
build only. -/
def IndexRecord.intoEntryRanges32 (release : Bool) (r : IndexRecord) : Res NodeRanges := do
  let (start, stop, position) ← r.entriesRange32 release
  if release then pure { data := r.record.data, start, stop, position }
  else NodeRanges.new r.record.data start stop position

end NT
