import Verif.Model.Boot
import Verif.Model.Record
import Verif.Model.Resident
import Verif.Model.Stream

/-! File records and the attributes stored in them: `src/file.rs` (record fields) and
`src/attribute.rs` (attribute header, names, values that live in one file record). -/

namespace NT

/-- `src/attribute.rs:117-168`: the `u32` discriminants of `NtfsAttributeType`. -/
def AttrType.code : AttrType → Nat
  | .standardInformation => 0x10
  | .attributeList => 0x20
  | .fileName => 0x30
  | .objectId => 0x40
  | .securityDescriptor => 0x50
  | .volumeName => 0x60
  | .volumeInformation => 0x70
  | .data => 0x80
  | .indexRoot => 0x90
  | .indexAllocation => 0xA0
  | .bitmap => 0xB0
  | .reparsePoint => 0xC0
  | .eaInformation => 0xD0
  | .ea => 0xE0
  | .propertySet => 0xF0
  | .loggedUtilityStream => 0x100
  | .end_ => 0xFFFFFFFF

/-- `src/attribute.rs:115-117`: `NtfsAttributeType::n` as derived by `enumn::N` (the variant with
the given discriminant). -/
def AttrType.ofCode (n : Nat) : Option AttrType :=
  [.standardInformation, .attributeList, .fileName, .objectId, .securityDescriptor,
   .volumeName, .volumeInformation, .data, .indexRoot, .indexAllocation, .bitmap,
   .reparsePoint, .eaInformation, .ea, .propertySet, .loggedUtilityStream,
   .end_].find? (fun t => t.code == n)

/-- The `u16` code units of a `U16StrLe` (`nt_string`, trusted): consecutive byte pairs, least
significant byte first. Names in the code always have an even number of bytes. -/
def u16s : Bytes → List Nat
  | a :: b :: rest => (a.toNat + 256 * b.toNat) :: u16s rest
  | _ => []

/-- `src/file.rs:127-131`, `struct NtfsFile`. -/
structure NFile where
  ntfs : Ntfs
  record : Record
  number : Nat
  deriving DecidableEq, Repr

namespace NFile

/-- `src/file.rs:495-497`, `record_data`. -/
abbrev recordData (f : NFile) : Bytes := f.record.data

/-- `src/file.rs:491-493`, `position`. -/
abbrev position (f : NFile) : Pos := f.record.position

/-- `src/file.rs:303-305`, `file_record_number`. -/
abbrev fileRecordNumber (f : NFile) : Nat := f.number

/-- `src/file.rs:162-165`, `allocated_size` (field at 28, header `src/file.rs:85-96`). -/
def allocatedSize (f : NFile) : Res Nat := readLE 4 f.recordData 28

/-- `src/file.rs:250-253`, `data_size` (field at 24). -/
def dataSize (f : NFile) : Res Nat := readLE 4 f.recordData 24

/-- `src/file.rs:404-407`, `first_attribute_offset` (field at 20). -/
def firstAttributeOffset (f : NFile) : Res Nat := readLE 2 f.recordData 20

/-- `src/file.rs:410-413`, `flags` (field at 22; `from_bits_truncate` keeps the bits IN_USE = 1 and
IS_DIRECTORY = 2). -/
def flags (f : NFile) : Res Nat := do
  let x ← readLE 2 f.recordData 22
  pure (x % 4)

/-- `src/file.rs:416-419`, `hard_link_count` (field at 18). -/
def hardLinkCount (f : NFile) : Res Nat := readLE 2 f.recordData 18

/-- `src/file.rs:504-507`, `sequence_number` (field at 16). -/
def sequenceNumber (f : NFile) : Res Nat := readLE 2 f.recordData 16

/-- `src/file.rs:431-433`, `is_directory`. -/
def isDirectory (f : NFile) : Res Bool := do
  let x ← f.flags
  pure (x / 2 % 2 == 1)

/-- `src/file.rs:509-522`, `validate_signature`. -/
def validateSignature (r : Record) : Res Unit := do
  let s ← r.signature
  if s = [0x46, 0x49, 0x4C, 0x45] then .ok () else .err (.invalidFileSignature r.position s)

/-- `src/file.rs:524-542`, `validate_sizes`; `src/record.rs:93-97` (`Record::len`, a `u32`; exact
because the record length is the `u32` `file_record_size`). -/
def validateSizes (f : NFile) : Res Unit := do
  let allocated ← f.allocatedSize
  if allocated > f.recordData.length then
    .err (.invalidFileAllocatedSize f.position allocated f.recordData.length)
  else do
    let used ← f.dataSize
    if used > allocated then .err (.invalidFileUsedSize f.position used allocated) else .ok ()

/-- `src/file.rs:147-158`: the part of `NtfsFile::new` after the bytes have been read. -/
def ofBytes (ntfs : Ntfs) (data : Bytes) (position number : Nat) : Res NFile := do
  let record : Record := { data, position := some position }
  validateSignature record
  let record ← record.fixup
  let file : NFile := { ntfs, record, number }
  file.validateSizes
  pure file

/-- `src/file.rs:134-159`, `NtfsFile::new`. `position` is a `NonZeroU64`. -/
def new (ntfs : Ntfs) (position number : Nat) : StM Dev NFile := do
  Dev.seekStart position
  let data ← Dev.readExact ntfs.fileRecordSize
  StM.lift (ofBytes ntfs data position number)

end NFile

/-- `src/structured_values/attribute_list.rs:61-66`, enum `NtfsAttributeList`: a resident list is
the slice with its position, a non-resident list is its value. -/
inductive AttrList
  | resident (slice : Bytes) (position : Pos)
  | nonResident (v : NonRes)
  deriving DecidableEq, Repr

/-- `src/attribute.rs:180-186`, `struct NtfsAttribute`. `list` is `list_entries`; a
`NtfsAttributeListEntries` (`src/structured_values/attribute_list.rs:113-115`) is just a
`NtfsAttributeList`. -/
structure Attr where
  file : NFile
  offset : Nat
  list : Option AttrList
  deriving DecidableEq, Repr

namespace Attr

/-- `src/attribute.rs:326-328`, `position`. -/
abbrev position (a : Attr) : Pos := Pos.add a.file.position a.offset

/-- The record bytes the attribute lies in (`self.file.record_data()`, `src/file.rs:495-497`). -/
abbrev recordData (a : Attr) : Bytes := a.file.recordData

/-- `src/attribute.rs:209-212`, `attribute_length` (field at 4, header `src/attribute.rs:32-41`). -/
def attributeLength (a : Attr) : Res Nat := readLE 4 a.recordData (a.offset + 4)

/-- `src/attribute.rs:228-233`, `flags` (field at 12; `from_bits_truncate` keeps 0x0001, 0x4000 and
0x8000). -/
def flags (a : Attr) : Res Nat := do
  let x ← readLE 2 a.recordData (a.offset + 12)
  pure (x % 2 + 0x4000 * (x / 0x4000))

/-- `src/attribute.rs:236-239`, `instance` (field at 14). -/
def inst (a : Attr) : Res Nat := readLE 2 a.recordData (a.offset + 14)

/-- `src/attribute.rs:243-247`, `is_resident` (field at 8). -/
def isResident (a : Attr) : Res Bool := do
  let b ← idxByte a.recordData (a.offset + 8)
  pure (b == 0)

/-- `src/attribute.rs:267-270`, `name_offset` (field at 10). -/
def nameOffset (a : Attr) : Res Nat := readLE 2 a.recordData (a.offset + 10)

/-- `src/attribute.rs:277-281`, `name_length` (field at 9, in bytes). -/
def nameLength (a : Attr) : Res Nat := do
  let n ← idxByte a.recordData (a.offset + 9)
  pure (n * 2)

/-- `src/attribute.rs:438-458`, `validate_name_sizes`. -/
def validateNameSizes (a : Attr) : Res Unit := do
  let start ← a.nameOffset
  let len ← a.attributeLength
  if start ≥ len then .err (.invalidAttributeNameOffset a.position start len)
  else do
    let n ← a.nameLength
    if start + n > len then .err (.invalidAttributeNameLength a.position (start + n) len)
    else .ok ()

/-- `src/attribute.rs:253-265`, `name` (the bytes of the `U16StrLe`). -/
def name (a : Attr) : Res Bytes := do
  let off ← a.nameOffset
  let len ← a.nameLength
  if off = 0 ∨ len = 0 then .ok []
  else do
    a.validateNameSizes
    idxRange a.recordData (a.offset + off) (a.offset + off + len)

/-- `src/attribute.rs:395-403`, `ty` (field at 0). -/
def ty (a : Attr) : Res AttrType := do
  let t ← readLE 4 a.recordData a.offset
  Res.ofOption (.unsupportedAttributeType a.position t) (AttrType.ofCode t)

/-- `src/attribute.rs:214-225`, `ensure_ty`. -/
def ensureTy (a : Attr) (expected : AttrType) : Res Unit := do
  let t ← a.ty
  if t ≠ expected then .err (.attributeOfDifferentType a.position expected t) else .ok ()

/-- `src/attribute.rs:405-436`, `validate_attribute_length`. `(start..end).len()` of an empty range
is 0. -/
def validateAttributeLength (a : Attr) : Res Unit := do
  let remaining := a.recordData.length - a.offset
  if remaining < 16 then .err (.invalidAttributeLength a.position 16 remaining)
  else do
    let len ← a.attributeLength
    if len < 16 then .err (.invalidAttributeLength a.position 16 len)
    else if len > remaining then .err (.invalidAttributeLength a.position len remaining)
    else .ok ()

/-- `src/attribute.rs:189-202`, `NtfsAttribute::new`. -/
def new (file : NFile) (offset : Nat) (list : Option AttrList) : Res Attr := do
  let a : Attr := { file, offset, list }
  a.validateAttributeLength
  pure a

/-- `debug_assert!(self.is_resident())` (`src/attribute.rs:356,367,373,461`): the model includes
debug assertions. -/
def assertResident (a : Attr) : Res Unit := do
  if ← a.isResident then .ok () else .panic .assert

/-- `debug_assert!(!self.is_resident())` (`src/attribute.rs:295,310,316`). -/
def assertNonResident (a : Attr) : Res Unit := do
  if ← a.isResident then .panic .assert else .ok ()

/-- `src/attribute.rs:366-370`, `resident_value_length` (field at 16). -/
def residentValueLength (a : Attr) : Res Nat := do
  a.assertResident
  readLE 4 a.recordData (a.offset + 16)

/-- `src/attribute.rs:372-376`, `resident_value_offset` (field at 20). -/
def residentValueOffset (a : Attr) : Res Nat := do
  a.assertResident
  readLE 2 a.recordData (a.offset + 20)

/-- `src/attribute.rs:309-313`, `non_resident_value_data_size` (field at 48, header
`src/attribute.rs:82-110`). -/
def nonResidentValueDataSize (a : Attr) : Res Nat := do
  a.assertNonResident
  readLE 8 a.recordData (a.offset + 48)

/-- `src/attribute.rs:315-319`, `non_resident_value_data_runs_offset` (field at 32). -/
def nonResidentValueDataRunsOffset (a : Attr) : Res Nat := do
  a.assertNonResident
  readLE 2 a.recordData (a.offset + 32)

/-- `src/attribute.rs:460-495`, `validate_resident_value_sizes`. -/
def validateResidentValueSizes (a : Attr) : Res Unit := do
  a.assertResident
  let len ← a.attributeLength
  let start ← a.residentValueOffset
  if start > len then .err (.invalidResidentAttributeValueOffset a.position start len)
  else do
    let length ← a.residentValueLength
    if start + length < U32 then
      if start + length > len then
        .err (.invalidResidentAttributeValueLength a.position length start len)
      else .ok ()
    else .err (.invalidResidentAttributeValueLength a.position length start len)

/-- `src/attribute.rs:355-364`, `resident_value`. -/
def residentValue (a : Attr) : Res ResVal := do
  a.assertResident
  a.validateResidentValueSizes
  let off ← a.residentValueOffset
  let len ← a.residentValueLength
  let data ← idxRange a.recordData (a.offset + off) (a.offset + off + len)
  pure (ResVal.new data a.position)

/-- `src/attribute.rs:294-307`, `non_resident_value_data_and_position`. -/
def nonResidentValueDataAndPosition (a : Attr) : Res (Bytes × Pos) := do
  a.assertNonResident
  let off ← a.nonResidentValueDataRunsOffset
  let len ← a.attributeLength
  let start := a.offset + off
  let stop := a.offset + len
  let position := Pos.add a.file.position start
  let data ← Res.ofOption
    (.invalidNonResidentValueDataRange position start stop a.recordData.length)
    (getRange a.recordData start stop)
  pure (data, position)

/-- `src/attribute.rs:283-292`, `non_resident_value`. -/
def nonResidentValue (a : Attr) : Res NonRes := do
  let (data, position) ← a.nonResidentValueDataAndPosition
  let size ← a.nonResidentValueDataSize
  NonRes.new a.file.ntfs.clusterSize data position size

/-- `src/attribute.rs:527-533`, `value_length`. -/
def valueLength (a : Attr) : Res Nat := do
  if ← a.isResident then a.residentValueLength else a.nonResidentValueDataSize

end Attr

/-- The first two variants of `src/attribute_value/mod.rs:26-33`, enum `NtfsAttributeValue`: values
of attributes that live in one file record. (The third variant is added in `Model/AttrList.lean`,
where the whole enum is `Val`.) -/
inductive SVal
  | res (v : ResVal)
  | nonRes (v : NonRes)
  deriving DecidableEq, Repr

/-- `src/attribute.rs:517-523`: `value` of an attribute without `list_entries`. -/
def Attr.simpleValue (a : Attr) : Res SVal := do
  if ← a.isResident then do
    let v ← a.residentValue
    pure (.res v)
  else do
    let v ← a.nonResidentValue
    pure (.nonRes v)

/-- `src/attribute_value/mod.rs:84-94`, `seek` for the first two variants. The device is not used by
either. -/
def SVal.seek (v : SVal) (pos : SeekFrom) : Res Nat × SVal :=
  match v with
  | .res v => let (r, v') := v.seek pos; (r, .res v')
  | .nonRes v => let (r, v') := v.seek pos; (r, .nonRes v')

/-- `src/attribute_value/mod.rs:50-56`, `data_position` for the first two variants. -/
def SVal.dataPosition : SVal → Pos
  | .res v => v.dataPosition
  | .nonRes v => v.dataPosition

/-- `src/attribute_value/mod.rs:64-70`, `len` for the first two variants. -/
def SVal.len : SVal → Nat
  | .res v => v.len
  | .nonRes v => v.len

/-- `src/attribute.rs:734-738`, `struct NtfsAttributesRaw` (`items_range` as two numbers). -/
structure AttrsRaw where
  file : NFile
  start : Nat
  stop : Nat
  deriving DecidableEq, Repr

/-- `src/attribute.rs:740-747`, `NtfsAttributesRaw::new`; `src/file.rs:190-192`,
`attributes_raw`. -/
def NFile.attributesRaw (f : NFile) : Res AttrsRaw := do
  let start ← f.firstAttributeOffset
  let stop ← f.dataSize
  pure { file := f, start, stop }

/-- `src/attribute.rs:752-769`, `NtfsAttributesRaw::next`. The end of `items_range` is not used. -/
def AttrsRaw.next (it : AttrsRaw) : Option (Res Attr) × AttrsRaw :=
  match getRange it.file.recordData it.start (it.start + 4) with
  | none => (none, it)
  | some b =>
    if leNat b = AttrType.end_.code then (none, it)
    else
      match Attr.new it.file it.start none with
      | .ok a =>
        match a.attributeLength with
        | .ok len => (some (.ok a), { it with start := it.start + len })
        | .err e => (some (.err e), it)
        | .panic p => (some (.panic p), it)
        | .diverge => (some .diverge, it)
      | .err e => (some (.err e), it)
      | .panic p => (some (.panic p), it)
      | .diverge => (some .diverge, it)

/-- `src/file.rs:372-376` (and 330-334): `attribute.name()? != name`. The `&str` is given by its
UTF-16 code units (`nt_string`'s comparison of `U16StrLe` with `str`, trusted). -/
def Attr.nameMatches (a : Attr) (name : Option (List Nat)) : Res Bool :=
  match name with
  | none => .ok true
  | some s => do
    let n ← a.name
    pure (u16s n == s)

/-- `src/file.rs:366-370`: the instance filter. -/
def Attr.instMatches (a : Attr) (inst : Option Nat) : Res Bool :=
  match inst with
  | none => .ok true
  | some i => do
    let j ← a.inst
    pure (j == i)

/-- `src/file.rs:359-384`: the loop of `find_resident_attribute`. Every successful step advances the
iterator by at least 16 bytes, so the record length is enough fuel. -/
def AttrsRaw.find (ty : AttrType) (name : Option (List Nat)) (inst : Option Nat) :
    Nat → AttrsRaw → Res Attr
  | 0, _ => .diverge
  | fuel + 1, it =>
    match it.next with
    | (none, _) => .err (.attributeNotFound it.file.position ty)
    | (some r, it') => do
      let a ← r
      let t ← a.ty
      if t ≠ ty then AttrsRaw.find ty name inst fuel it'
      else do
        let im ← a.instMatches inst
        if !im then AttrsRaw.find ty name inst fuel it'
        else do
          let nm ← a.nameMatches name
          if !nm then AttrsRaw.find ty name inst fuel it'
          else .ok a

/-- `src/file.rs:352-385`, `find_resident_attribute`. -/
def NFile.findResidentAttribute (f : NFile) (ty : AttrType) (name : Option (List Nat))
    (inst : Option Nat) : Res Attr := do
  let it ← f.attributesRaw
  it.find ty name inst (f.recordData.length + 1)

/-- `src/ntfs.rs:85-110`, `Ntfs::file`. -/
def Ntfs.file (n : Ntfs) (number : Nat) : StM Dev NFile := do
  let offset ← StM.lift (Res.ofOption (.invalidFileRecordNumber number)
    (checkedMulU64 number n.fileRecordSize))
  match n.mftPosition with
  | none => StM.die .unwrap
  | some mftPos => do
    let mft ← NFile.new n mftPos 0
    let attr ← StM.lift (mft.findResidentAttribute .data none none)
    let v ← StM.lift attr.simpleValue
    match v.seek (.start offset) with
    | (.ok _, v') =>
      match v'.dataPosition with
      | some position => NFile.new n position number
      | none => StM.fail (.invalidFileRecordNumber number)
    | (.err e, _) => StM.fail e
    | (.panic p, _) => StM.die p
    | (.diverge, _) => StM.lift .diverge

end NT
