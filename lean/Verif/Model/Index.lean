import Verif.Model.FileOps

/-! Indexes: `src/index_entry.rs`, `src/index_record.rs`, `src/structured_values/index_root.rs`,
`src/structured_values/index_allocation.rs`, `src/index.rs`, `src/indexes/file_name.rs` and
`src/file.rs:263-297`.

The entry type parameter `E: NtfsIndexEntryType` only matters for how keys and data are parsed
(`key_from_slice`, `data_from_slice`); these functions are parameters here. -/

namespace NT

/-- `src/index_entry.rs:107-114`, `struct NtfsIndexEntry`. -/
structure IEntry where
  slice : Bytes
  position : Pos
  deriving DecidableEq, Repr

namespace IEntry

/-- `src/index_entry.rs:203-206`, `index_entry_length` (field at 8, header at 29-42). -/
def length (e : IEntry) : Res Nat := readLE 2 e.slice 8

/-- `src/index_entry.rs:235-238`, `key_length` (field at 10). -/
def keyLength (e : IEntry) : Res Nat := readLE 2 e.slice 10

/-- `src/index_entry.rs:193-196`, `flags` (field at 12; `from_bits_truncate` keeps the bits
HAS_SUBNODE = 1 and LAST_ENTRY = 2). -/
def flags (e : IEntry) : Res Nat := do
  let x ← idxByte e.slice 12
  pure (x % 4)

/-- `flags().contains(HAS_SUBNODE)`. -/
def hasSubnode (e : IEntry) : Res Bool := do
  let x ← e.flags
  pure (x % 2 == 1)

/-- `flags().contains(LAST_ENTRY)`. -/
def isLast (e : IEntry) : Res Bool := do
  let x ← e.flags
  pure (x / 2 % 2 == 1)

/-- `src/index_entry.rs:279-297`, `validate_size`. -/
def validateSize (e : IEntry) : Res Unit :=
  if e.slice.length < 16 then
    .err (.invalidIndexEntrySize e.position 16 (e.slice.length % U16))
  else do
    let n ← e.length
    if n > e.slice.length then .err (.invalidIndexEntrySize e.position n (e.slice.length % U16))
    else .ok ()

/-- `src/index_entry.rs:120-132`, `new`. -/
def new (slice : Bytes) (position : Pos) : Res IEntry := do
  let e : IEntry := { slice, position }
  e.validateSize
  let n ← e.length
  let slice ← idxRange slice 0 n
  pure { slice, position }

/-- `src/index_entry.rs:161-167`, `data_offset` (field at 0). -/
def dataOffset (e : IEntry) : Res Nat := readLE 2 e.slice 0

/-- `src/index_entry.rs:170-176`, `data_length` (field at 2). -/
def dataLength (e : IEntry) : Res Nat := readLE 2 e.slice 2

/-- The ranges of `data`, `key` and `subnode_vcn`: `self.slice.get(start..end)` or
`InvalidIndexEntryDataRange`. -/
def range (e : IEntry) (start stop : Nat) : Res Bytes :=
  Res.ofOption (.invalidIndexEntryDataRange e.position start stop (e.slice.length % U16))
    (getRange e.slice start stop)

/-- `src/index_entry.rs:138-159`, `data`. -/
def data {δ : Type} (dataFromSlice : Bytes → Pos → Res δ) (e : IEntry) : Res (Option δ) := do
  let start ← e.dataOffset
  if start = 0 then pure none
  else do
    let n ← e.dataLength
    if n = 0 then pure none
    else do
      let s ← e.range start (start + n)
      let x ← dataFromSlice s (Pos.add e.position start)
      pure (some x)

/-- `src/index_entry.rs:183-190`, `file_reference`. -/
def fileReference (e : IEntry) : Res FileRef := do
  let b ← idxRange e.slice 0 8
  pure { bytes := b }

/-- `src/index_entry.rs:212-232`, `key`. -/
def key {κ : Type} (keyFromSlice : Bytes → Pos → Res κ) (e : IEntry) : Res (Option κ) := do
  let n ← e.keyLength
  if n = 0 then pure none
  else if ← e.isLast then pure none
  else do
    let s ← e.range 16 (16 + n)
    let x ← keyFromSlice s (Pos.add e.position 16)
    pure (some x)

/-- `src/index_entry.rs:247-268`, `subnode_vcn`. -/
def subnodeVcn (e : IEntry) : Res (Option Int) := do
  if !(← e.hasSubnode) then pure none
  else do
    let n ← e.length
    if n < 8 then .panic .overflow
    else do
      let start := max (n - 8) 16
      let s ← e.range start (start + 8)
      let v ← readLE 8 s 0
      pure (some (toI64 v))

/-- `src/index_entry.rs:271-277`, `to_file`. -/
def toFile (e : IEntry) (ntfs : Ntfs) : StM Dev NFile := do
  let r ← StM.lift e.fileReference
  r.toFile ntfs

end IEntry

/-- `src/index_entry.rs:62-69`, `struct IndexEntryRange`. -/
structure EntryRange where
  start : Nat
  stop : Nat
  position : Pos
  deriving DecidableEq, Repr

/-- `src/index_entry.rs:84-86`, `to_entry`. -/
def EntryRange.toEntry (r : EntryRange) (slice : Bytes) : Res IEntry := do
  let s ← idxRange slice r.start r.stop
  IEntry.new s r.position

/-- `src/index_entry.rs:301-309`, `struct IndexNodeEntryRanges`. -/
structure NodeRanges where
  data : Bytes
  start : Nat
  stop : Nat
  position : Pos
  deriving DecidableEq, Repr

/-- `src/index_entry.rs:315-325`, `new`, with its `debug_assert!`. -/
def NodeRanges.new (data : Bytes) (start stop : Nat) (position : Pos) : Res NodeRanges :=
  if stop ≤ data.length then .ok { data, start, stop, position } else .panic .assert

/-- `src/index_entry.rs:346-358`: the entry at the front of the node, the end of its range, and the
iterator after it. -/
def NodeRanges.step (it : NodeRanges) : Res (EntryRange × NodeRanges) := do
  let s ← idxRange it.data it.start it.data.length
  let e ← IEntry.new s it.position
  let n ← e.length
  let stop := it.start + n
  let r : EntryRange := { start := it.start, stop, position := it.position }
  if ← e.isLast then pure (r, { it with start := it.data.length })
  else pure (r, { it with start := stop, position := Pos.add it.position n })

/-- `src/index_entry.rs:338-361`, `IndexNodeEntryRanges::next`. -/
def NodeRanges.next : StM NodeRanges (Option EntryRange) := fun it =>
  if ¬ it.start < it.stop then (.ok none, it)
  else
    match it.step with
    | .ok (r, it') => (.ok (some r), it')
    | .err x => (.err x, it)
    | .panic p => (.panic p, it)
    | .diverge => (.diverge, it)

/-- `src/index_entry.rs:383-390`, `struct NtfsIndexNodeEntries`. -/
structure NodeEntries where
  slice : Bytes
  position : Pos
  deriving DecidableEq, Repr

/-- `src/index_entry.rs:418-430`: the entry at the front and the iterator after it. -/
def NodeEntries.step (it : NodeEntries) : Res (IEntry × NodeEntries) := do
  let e ← IEntry.new it.slice it.position
  if ← e.isLast then pure (e, { it with slice := [] })
  else do
    let n ← e.length
    let s ← idxRange it.slice n it.slice.length
    pure (e, { slice := s, position := Pos.add it.position n })

/-- `src/index_entry.rs:412-433`, `NtfsIndexNodeEntries::next`. -/
def NodeEntries.next : StM NodeEntries (Option IEntry) := fun it =>
  if it.slice.isEmpty then (.ok none, it)
  else
    match it.step with
    | .ok (e, it') => (.ok (some e), it')
    | .err x => (.err x, it)
    | .panic p => (.panic p, it)
    | .diverge => (.diverge, it)

/-- `src/index_record.rs:52-54`, `struct NtfsIndexRecord`. -/
structure IndexRecord where
  record : Record
  deriving DecidableEq, Repr

namespace IndexRecord

/-- `src/index_record.rs:123-126`, `index_entries_offset` (field at 24; the node header, 32-38, follows
the 24 bytes of the record header, 21-27). -/
def entriesOffset (r : IndexRecord) : Res Nat := readLE 4 r.record.data 24

/-- `src/index_record.rs:118-121`, `index_data_size` (field at 28). -/
def dataSize (r : IndexRecord) : Res Nat := readLE 4 r.record.data 28

/-- `src/index_record.rs:112-115`, `index_allocated_size` (field at 32). -/
def allocatedSize (r : IndexRecord) : Res Nat := readLE 4 r.record.data 32

/-- `src/index_record.rs:105-109`, `has_subnodes` (field at 36). -/
def hasSubnodes (r : IndexRecord) : Res Bool := do
  let x ← idxByte r.record.data 36
  pure (x % 2 == 1)

/-- `src/index_record.rs:185-188`, `vcn` (field at 16). -/
def vcn (r : IndexRecord) : Res Int := do
  let x ← readLE 8 r.record.data 16
  pure (toI64 x)

/-- `src/index_record.rs:136-149`, `validate_signature`. -/
def validateSignature (r : Record) : Res Unit := do
  let s ← r.signature
  if s = [0x49, 0x4E, 0x44, 0x58] then .ok () else .err (.invalidIndexSignature r.position s)

/-- `src/index_record.rs:151-177`, `validate_sizes`: `u32` additions. `Record::len`
(`src/record.rs:93-97`) is exact because the length is the `u32` `index_record_size`. -/
def validateSizes (r : IndexRecord) : Res Unit := do
  let size := r.record.data.length
  let a ← r.allocatedSize
  if ¬ 24 + a < U32 then .panic .overflow
  else if 24 + a > size then .err (.invalidIndexAllocatedSize r.record.position size (24 + a))
  else do
    let u ← r.dataSize
    if ¬ 24 + u < U32 then .panic .overflow
    else if 24 + u > 24 + a then .err (.invalidIndexUsedSize r.record.position (24 + a) (24 + u))
    else .ok ()

/-- `src/index_record.rs:72-79`: the part of `new` after the bytes have been read. -/
def ofBytes (data : Bytes) (position : Pos) : Res IndexRecord := do
  let record : Record := { data, position }
  validateSignature record
  let record ← record.fixup
  let r : IndexRecord := { record }
  r.validateSizes
  pure r

/-- `src/index_record.rs:59-80`, `new`. -/
def new (value : Val) (size : Nat) : StM Dev IndexRecord := do
  let data ← value.readInto size
  StM.lift (ofBytes data value.dataPosition)

/-- `src/index_record.rs:95-101`, `entries_range_and_position`. -/
def entriesRange (r : IndexRecord) : Res (Nat × Nat × Pos) := do
  let o ← r.entriesOffset
  let u ← r.dataSize
  pure (24 + o, 24 + u, Pos.add r.record.position (24 + o))

/-- `src/index_record.rs:85-93`, `entries`. -/
def entries (r : IndexRecord) : Res NodeEntries := do
  let (start, stop, position) ← r.entriesRange
  let slice ← idxRange r.record.data start stop
  pure { slice, position }

/-- `src/index_record.rs:128-134`, `into_entry_ranges`. -/
def intoEntryRanges (r : IndexRecord) : Res NodeRanges := do
  let (start, stop, position) ← r.entriesRange
  NodeRanges.new r.record.data start stop position

end IndexRecord

/-- `src/structured_values/index_root.rs:47-50`, `struct NtfsIndexRoot`. -/
structure IndexRoot where
  slice : Bytes
  position : Pos
  deriving DecidableEq, Repr

namespace IndexRoot

/-- `src/structured_values/index_root.rs:113-116`, `index_entries_offset` (field at 16). -/
def entriesOffset (r : IndexRoot) : Res Nat := readLE 4 r.slice 16

/-- `src/structured_values/index_root.rs:108-111`, `index_data_size` (field at 20). -/
def dataSize (r : IndexRoot) : Res Nat := readLE 4 r.slice 20

/-- `src/structured_values/index_root.rs:102-105`, `index_allocated_size` (field at 24). -/
def allocatedSize (r : IndexRoot) : Res Nat := readLE 4 r.slice 24

/-- `src/structured_values/index_root.rs:119-122`, `index_record_size` (field at 8). -/
def recordSize (r : IndexRoot) : Res Nat := readLE 4 r.slice 8

/-- `src/structured_values/index_root.rs:127-130`, `is_large_index` (field at 28). -/
def isLarge (r : IndexRoot) : Res Bool := do
  let x ← idxByte r.slice 28
  pure (x % 2 == 1)

/-- `src/structured_values/index_root.rs:82-88`, `entries_range_and_position`. -/
def entriesRange (r : IndexRoot) : Res (Nat × Nat × Pos) := do
  let o ← r.entriesOffset
  let u ← r.dataSize
  pure (16 + o, 16 + u, Pos.add r.position (16 + o))

/-- `src/structured_values/index_root.rs:137-157`, `validate_sizes`. -/
def validateSizes (r : IndexRoot) : Res Unit := do
  let (start, stop, _) ← r.entriesRange
  if start ≥ r.slice.length then
    .err (.invalidIndexRootEntriesOffset r.position start r.slice.length)
  else if stop > r.slice.length then
    .err (.invalidIndexRootUsedSize r.position stop r.slice.length)
  else .ok ()

/-- `src/structured_values/index_root.rs:55-69`, `new`. The error reports 16 as the expected size. -/
def new (slice : Bytes) (position : Pos) : Res IndexRoot :=
  if slice.length < 32 then
    .err (.invalidStructuredValueSize position .indexRoot 16 slice.length)
  else do
    let r : IndexRoot := { slice, position }
    r.validateSizes
    pure r

/-- `src/structured_values/index_root.rs:72-80`, `entries`. -/
def entries (r : IndexRoot) : Res NodeEntries := do
  let (start, stop, position) ← r.entriesRange
  let slice ← idxRange r.slice start stop
  pure { slice, position }

/-- `src/structured_values/index_root.rs:90-99`, `entry_ranges`. -/
def entryRanges (r : IndexRoot) : Res NodeRanges := do
  let (start, stop, position) ← r.entriesRange
  let data ← idxRange r.slice start stop
  NodeRanges.new data 0 data.length position

/-- `src/structured_values/index_root.rs:163-175`, `from_attribute_value`. -/
def ofValue : Val → Res IndexRoot
  | .simple (.res v) => new v.data v.dataPosition
  | v => .err (.unexpectedNonResidentAttribute v.dataPosition)

/-- `src/structured_values/index_root.rs:179-181`, `from_resident_attribute_value`. -/
def ofResident (v : ResVal) : Res IndexRoot := new v.data v.dataPosition

end IndexRoot

/-- `src/attribute.rs:383-391`, `structured_value::<NtfsIndexRoot>`. -/
def Attr.indexRoot (a : Attr) : StM Dev IndexRoot := do
  StM.lift (a.ensureTy .indexRoot)
  let v ← a.value
  StM.lift (IndexRoot.ofValue v)

/-- `src/attribute.rs:339-353`, `resident_structured_value::<NtfsIndexRoot>`. -/
def Attr.residentIndexRoot (a : Attr) : Res IndexRoot := do
  a.ensureTy .indexRoot
  if ← a.isResident then do
    let v ← a.residentValue
    IndexRoot.ofResident v
  else
    .err (.unexpectedNonResidentAttribute a.position)

/-- `src/structured_values/index_allocation.rs:32-35`, `struct NtfsIndexAllocation`. Simplification:
of `ntfs` only the cluster size is kept, the only thing that is used. -/
structure IndexAllocation where
  clusterSize : Nat
  value : Val
  deriving DecidableEq, Repr

namespace IndexAllocation

/-- `src/structured_values/index_allocation.rs:93-107`, `from_attribute_value`. -/
def ofValue : Val → Res IndexAllocation
  | .list v => .ok { clusterSize := v.ntfs.clusterSize, value := .list v }
  | .simple (.nonRes v) => .ok { clusterSize := v.clusterSize, value := .simple (.nonRes v) }
  | .simple (.res v) => .err (.unexpectedResidentAttribute v.dataPosition)

/-- The same as `Val.seek`, with the device as state and the value returned. -/
def seekTo (v : Val) (pos : SeekFrom) : StM Dev Val := fun d =>
  match v.seek pos d with
  | (.ok _, v', d') => (.ok v', d')
  | (.err e, _, d') => (.err e, d')
  | (.panic p, _, d') => (.panic p, d')
  | (.diverge, _, d') => (.diverge, d')

/-- `src/structured_values/index_allocation.rs:46-80`, `record_from_vcn`. -/
def recordFromVcn (a : IndexAllocation) (size : Nat) (vcn : Int) : StM Dev IndexRecord := do
  let offset ← StM.lift (Vcn.offset vcn a.clusterSize)
  let value ← seekTo a.value (.current offset)
  if value.streamPosition ≥ value.len then
    StM.fail (.vcnOutOfBoundsInIndexAllocation a.value.dataPosition vcn)
  else do
    let record ← IndexRecord.new value size
    let actual ← StM.lift record.vcn
    if actual ≠ vcn then
      StM.fail (.vcnMismatchInIndexAllocation a.value.dataPosition vcn actual)
    else pure record

end IndexAllocation

/-- `src/attribute.rs:383-391`, `structured_value::<NtfsIndexAllocation>`. -/
def Attr.indexAllocation (a : Attr) : StM Dev IndexAllocation := do
  StM.lift (a.ensureTy .indexAllocation)
  let v ← a.value
  StM.lift (IndexAllocation.ofValue v)

/-- `src/structured_values/index_allocation.rs:118-121`, `struct NtfsIndexRecords`. -/
structure IndexRecords where
  allocation : IndexAllocation
  size : Nat
  deriving DecidableEq, Repr

/-- `src/structured_values/index_allocation.rs:85-87` (`records`) and 124-129 (`NtfsIndexRecords::new`). -/
def IndexAllocation.records (x : IndexAllocation) (size : Nat) : IndexRecords :=
  { allocation := x, size }

/-- `src/structured_values/index_allocation.rs:141-163`, `NtfsIndexRecords::next`; the attached variant
(lines 195-205) passes calls through. When the seek fails
the Rust value keeps the partly moved value; the model keeps it as `Val.seek` returns it. -/
def IndexRecords.next : StM (IndexRecords × Dev) (Option IndexRecord) := fun (it, d) =>
  if it.allocation.value.streamPosition ≥ it.allocation.value.len then (.ok none, (it, d))
  else
    match IndexRecord.new it.allocation.value it.size d with
    | (.ok r, d1) =>
      match it.allocation.value.seek (.current it.size) d1 with
      | (.ok _, v', d2) =>
        (.ok (some r), ({ it with allocation := { it.allocation with value := v' } }, d2))
      | (.err e, v', d2) =>
        (.err e, ({ it with allocation := { it.allocation with value := v' } }, d2))
      | (.panic p, v', d2) =>
        (.panic p, ({ it with allocation := { it.allocation with value := v' } }, d2))
      | (.diverge, v', d2) =>
        (.diverge, ({ it with allocation := { it.allocation with value := v' } }, d2))
    | (.err e, d1) => (.err e, (it, d1))
    | (.panic p, d1) => (.panic p, (it, d1))
    | (.diverge, d1) => (.diverge, (it, d1))

/-- `src/index.rs:30-39`, `struct NtfsIndex`. -/
structure Index where
  recordSize : Nat
  rootRanges : NodeRanges
  rootPosition : Pos
  allocationItem : Option AttrItem
  deriving DecidableEq, Repr

namespace Index

/-- `src/index.rs:61-68`: the checks of `new` on the index allocation. -/
def checkAllocation (root : IndexRoot) : Option AttrItem → Res Unit
  | some item => do
    let a ← item.toAttribute
    a.ensureTy .indexAllocation
  | none => do
    if ← root.isLarge then .err (.missingIndexAllocation root.position) else .ok ()

/-- `src/index.rs:53-82`, `new`. -/
def new (rootItem : AttrItem) (allocationItem : Option AttrItem) : Res Index := do
  let a ← rootItem.toAttribute
  a.ensureTy .indexRoot
  let root ← a.residentIndexRoot
  checkAllocation root allocationItem
  let recordSize ← root.recordSize
  let rootRanges ← root.entryRanges
  pure { recordSize, rootRanges, rootPosition := root.position, allocationItem }

/-- `src/index.rs:165-183` and `src/index.rs:303-318`: the entries of the subnode with a given VCN. -/
def subnode (ix : Index) (vcn : Int) : StM Dev NodeRanges := do
  let item ← StM.lift (Res.ofOption (.missingIndexAllocation ix.rootPosition) ix.allocationItem)
  let a ← StM.lift item.toAttribute
  let allocation ← a.indexAllocation
  let record ← allocation.recordFromVcn ix.recordSize vcn
  StM.lift record.intoEntryRanges

end Index

/-- `src/index.rs:102-109`, `struct NtfsIndexEntries` without the reference to the index. Both stacks
are lists with the top in front. -/
structure IndexEntries where
  inner : List NodeRanges
  following : List (Option EntryRange)
  deriving DecidableEq, Repr

namespace IndexEntries

/-- `src/index.rs:115-124`, `new`. -/
def new (ix : Index) : IndexEntries := { inner := [ix.rootRanges], following := [] }

/-- `src/index.rs:158-163`: what the loop needs to know of an entry: whether it is the last one, and
the VCN of its subnode. -/
def inspect (r : EntryRange) (data : Bytes) : Res (Bool × Option Int) := do
  let e ← r.toEntry data
  let last ← e.isLast
  let vcn ← e.subnodeVcn
  pure (last, vcn)

/-- `src/index.rs:149-222`: the loop of `next`, with fuel. `none` ends the iteration. -/
def loop (ix : Index) : Nat → StM (IndexEntries × Dev) (Option EntryRange)
  | 0 => fun s => (.diverge, s)
  | fuel + 1 => fun (it, d) =>
    match it.inner with
    | [] => (.ok none, (it, d))
    | top :: below =>
      match top.next with
      | (.ok (some r), top') =>
        let it1 : IndexEntries := { it with inner := top' :: below }
        match inspect r top'.data with
        | .ok (last, some vcn) =>
          match ix.subnode vcn d with
          | (.ok sub, d') =>
            loop ix fuel ({ inner := sub :: top' :: below,
                            following := (if last then none else some r) :: it.following }, d')
          | (.err x, d') => (.err x, (it1, d'))
          | (.panic p, d') => (.panic p, (it1, d'))
          | (.diverge, d') => (.diverge, (it1, d'))
        | .ok (last, none) =>
          if last then loop ix fuel (it1, d) else (.ok (some r), (it1, d))
        | .err x => (.err x, (it1, d))
        | .panic p => (.panic p, (it1, d))
        | .diverge => (.diverge, (it1, d))
      | (.ok none, _) =>
        match it.following with
        | [] => (.ok none, ({ it with inner := below }, d))
        | some r :: rest => (.ok (some r), ({ inner := below, following := rest }, d))
        | none :: rest => loop ix fuel ({ inner := below, following := rest }, d)
      | (.err x, top') => (.err x, ({ it with inner := top' :: below }, d))
      | (.panic p, top') => (.panic p, ({ it with inner := top' :: below }, d))
      | (.diverge, top') => (.diverge, ({ it with inner := top' :: below }, d))

/-- `src/index.rs:224-227`: the entry of the range that ended the loop. -/
def entryOf (r : EntryRange) (it : IndexEntries) : Res IEntry :=
  match it.inner with
  | [] => .panic .unwrap
  | top :: _ => r.toEntry top.data

/-- `src/index.rs:127-228`, `NtfsIndexEntries::next`. The fuel bounds the number of rounds of the loop;
the code has no bound. -/
def next (ix : Index) (fuel : Nat) : StM (IndexEntries × Dev) (Option IEntry) := fun s =>
  match loop ix fuel s with
  | (.ok none, s') => (.ok none, s')
  | (.ok (some r), s') =>
    match entryOf r s'.1 with
    | .ok e => (.ok (some e), s')
    | .err x => (.err x, s')
    | .panic p => (.panic p, s')
    | .diverge => (.diverge, s')
  | (.err x, s') => (.err x, s')
  | (.panic p, s') => (.panic p, s')
  | (.diverge, s') => (.diverge, s')

end IndexEntries

namespace Index

/-- `src/index.rs:276-297`: what to do with one entry: return it (`some true`), go on with the next
entry of the node (`some false`), or look into its subnode (`none`). -/
def judge {κ : Type} (keyFromSlice : Bytes → Pos → Res κ) (cmp : κ → Res Ordering) (e : IEntry) :
    Res (Option Bool) := do
  match ← e.key keyFromSlice with
  | none => pure none
  | some k => do
    match ← cmp k with
    | .eq => pure (some true)
    | .gt => pure (some false)
    | .lt => pure none

/-- `src/index.rs:267-319`: the loop of `find`, with fuel. Simplification: the iterator stored in the
finder is a parameter; `find` overwrites it first (line 265), so it carries nothing from one call to
the next. -/
def findLoop {κ : Type} (keyFromSlice : Bytes → Pos → Res κ) (cmp : κ → Res Ordering) (ix : Index) :
    Nat → NodeRanges → StM Dev (Option IEntry)
  | 0, _ => StM.lift .diverge
  | fuel + 1, it => fun d =>
    match it.next with
    | (.ok none, _) => (.ok none, d)
    | (.ok (some r), it') =>
      match r.toEntry it'.data with
      | .ok e =>
        match judge keyFromSlice cmp e with
        | .ok (some true) => (r.toEntry it'.data >>= fun e => .ok (some e), d)
        | .ok (some false) => findLoop keyFromSlice cmp ix fuel it' d
        | .ok none =>
          match e.subnodeVcn with
          | .ok none => (.ok none, d)
          | .ok (some vcn) =>
            match ix.subnode vcn d with
            | (.ok sub, d') => findLoop keyFromSlice cmp ix fuel sub d'
            | (.err x, d') => (.err x, d')
            | (.panic p, d') => (.panic p, d')
            | (.diverge, d') => (.diverge, d')
          | .err x => (.err x, d)
          | .panic p => (.panic p, d)
          | .diverge => (.diverge, d)
        | .err x => (.err x, d)
        | .panic p => (.panic p, d)
        | .diverge => (.diverge, d)
      | .err x => (.err x, d)
      | .panic p => (.panic p, d)
      | .diverge => (.diverge, d)
    | (.err x, _) => (.err x, d)
    | (.panic p, _) => (.panic p, d)
    | (.diverge, _) => (.diverge, d)

/-- `src/index.rs:259-320`, `NtfsIndexFinder::find`. -/
def find {κ : Type} (keyFromSlice : Bytes → Pos → Res κ) (cmp : κ → Res Ordering) (ix : Index)
    (fuel : Nat) : StM Dev (Option IEntry) :=
  findLoop keyFromSlice cmp ix fuel ix.rootRanges

/-- `src/indexes/file_name.rs:25-37`, `NtfsFileNameIndex::find`. The name is given as UTF-16 code units
(`str::encode_utf16` is done by `nt-string`, trusted). -/
def findName (ix : Index) (ntfs : Ntfs) (name : List Nat) (fuel : Nat) : StM Dev (Option IEntry) :=
  ix.find FileName.keyFromSlice (fun f => upcaseCmp ntfs name (u16s f.name)) fuel

end Index

/-- `src/file.rs:275`: the UTF-16 code units of `"$I30"`. -/
def i30 : List Nat := [0x24, 0x49, 0x33, 0x30]

/-- `src/file.rs:285-294`: the index allocation of a directory, searched for only if the index is
large. -/
def NFile.indexAllocationItem (f : NFile) (root : IndexRoot) (fuel : Nat) :
    StM Dev (Option AttrItem) := do
  if ← StM.lift root.isLarge then do
    let i ← f.findAttribute .indexAllocation (some i30) fuel
    pure (some i)
  else pure none

/-- `src/file.rs:263-297`, `directory_index`. -/
def NFile.directoryIndex (f : NFile) (fuel : Nat) : StM Dev Index := do
  if !(← StM.lift f.isDirectory) then StM.fail (.notADirectory f.position)
  else do
    let rootItem ← f.findAttribute .indexRoot (some i30) fuel
    let a ← StM.lift rootItem.toAttribute
    let root ← StM.lift a.residentIndexRoot
    let allocationItem ← f.indexAllocationItem root fuel
    StM.lift (Index.new rootItem allocationItem)

end NT
