import Verif.Model.AttrList

/-! Structured values: `src/structured_values/{mod,standard_information,file_name,
volume_information,volume_name,object_id}.rs` and `src/guid.rs`.

Every `new` takes the reader as its `read_exact`. Simplification: `binrw` (trusted) reads the fields
of a header one after the other, the model reads a header with one `read_exact` and cuts it up. -/

namespace NT

/-- `src/structured_values/mod.rs:85-102`: the traits `NtfsStructuredValue` (constant `TY`,
`from_attribute_value`) and `NtfsStructuredValueFromResidentAttributeValue`. All implementations
modelled here hand `data_position` and `len` of the value to a function `new`. -/
structure Structured (α : Type) where
  ty : AttrType
  new : {σ : Type} → (Nat → StM σ Bytes) → Pos → Nat → StM σ α

/-- `from_attribute_value` (`src/structured_values/standard_information.rs:152-161`,
`file_name.rs:274-283`, `volume_information.rs:104-113`, `volume_name.rs:75-84`,
`object_id.rs:94-103`). -/
def Structured.ofValue {α : Type} (S : Structured α) (v : Val) : StM Dev α := fun d =>
  let (r, (_, d')) := S.new Val.readExactAttached v.dataPosition v.len (v, d)
  (r, d')

/-- `from_resident_attribute_value` (`src/structured_values/standard_information.rs:165-171`,
`volume_information.rs:117-123`, `volume_name.rs:88-94`, `object_id.rs:107-113`). -/
def Structured.ofResident {α : Type} (S : Structured α) (v : ResVal) : Res α :=
  (S.new cursorReadExact v.dataPosition v.len v.data).1

/-- `src/attribute.rs:383-391`, `structured_value`. -/
def Attr.structuredValue {α : Type} (S : Structured α) (a : Attr) : StM Dev α := do
  StM.lift (a.ensureTy S.ty)
  let v ← a.value
  S.ofValue v

/-- `src/attribute.rs:339-353`, `resident_structured_value`. -/
def Attr.residentStructuredValue {α : Type} (S : Structured α) (a : Attr) : Res α := do
  a.ensureTy S.ty
  if ← a.isResident then do
    let v ← a.residentValue
    S.ofResident v
  else
    .err (.unexpectedNonResidentAttribute a.position)

/-- `src/structured_values/mod.rs:42-75`: the bits of `NtfsFileAttributeFlags`. -/
def fileAttributeBits : List Nat :=
  [0x0001, 0x0002, 0x0004, 0x0020, 0x0040, 0x0080, 0x0100, 0x0200, 0x0400, 0x0800, 0x1000, 0x2000,
    0x4000, 0x10000000]

/-- `bitflags`: `from_bits_truncate` keeps the declared bits (trusted). -/
def fromBitsTruncate (bits : List Nat) (x : Nat) : Nat := x &&& bits.foldl (· ||| ·) 0

/-- `src/structured_values/standard_information.rs:32-40`, `StandardInformationDataNtfs3`. -/
structure StdInfo3 where
  maximumVersions : Nat
  version : Nat
  classId : Nat
  ownerId : Nat
  securityId : Nat
  quotaCharged : Nat
  usn : Nat
  deriving DecidableEq, Repr

/-- `src/structured_values/standard_information.rs:23-29, 51-54`, `NtfsStandardInformation`. -/
structure StdInfo where
  creationTime : Nat
  modificationTime : Nat
  mftRecordModificationTime : Nat
  accessTime : Nat
  rawFileAttributes : Nat
  ntfs3 : Option StdInfo3
  deriving DecidableEq, Repr

namespace StdInfo

/-- `src/structured_values/standard_information.rs:22-29`: 36 bytes decoded by `binrw`. -/
def ofBytes1 (h : Bytes) : Res StdInfo := do
  let creationTime ← readLE 8 h 0
  let modificationTime ← readLE 8 h 8
  let mftRecordModificationTime ← readLE 8 h 16
  let accessTime ← readLE 8 h 24
  let rawFileAttributes ← readLE 4 h 32
  pure { creationTime, modificationTime, mftRecordModificationTime, accessTime, rawFileAttributes,
         ntfs3 := none }

/-- `src/structured_values/standard_information.rs:31-40`: 36 bytes decoded by `binrw`. -/
def ofBytes3 (h : Bytes) : Res StdInfo3 := do
  let maximumVersions ← readLE 4 h 0
  let version ← readLE 4 h 4
  let classId ← readLE 4 h 8
  let ownerId ← readLE 4 h 12
  let securityId ← readLE 4 h 16
  let quotaCharged ← readLE 8 h 20
  let usn ← readLE 8 h 28
  pure { maximumVersions, version, classId, ownerId, securityId, quotaCharged, usn }

/-- `src/structured_values/standard_information.rs:57-81`, `new`. -/
def new {σ : Type} (readExact : Nat → StM σ Bytes) (position : Pos) (len : Nat) : StM σ StdInfo :=
  if len < 48 then StM.fail (.invalidStructuredValueSize position .standardInformation 48 len)
  else do
    let h ← readExact 36
    let i ← StM.lift (ofBytes1 h)
    if len ≥ 72 then do
      let h3 ← readExact 36
      let x ← StM.lift (ofBytes3 h3)
      pure { i with ntfs3 := some x }
    else pure i

/-- `src/structured_values/standard_information.rs:149-172`. -/
def structured : Structured StdInfo := { ty := .standardInformation, new := new }

/-- `src/structured_values/standard_information.rs:100-102`, `file_attributes`. -/
def fileAttributes (i : StdInfo) : Nat := fromBitsTruncate fileAttributeBits i.rawFileAttributes

/-- `src/structured_values/standard_information.rs:89-91`, `class_id`. -/
def classId (i : StdInfo) : Option Nat := i.ntfs3.map (·.classId)

/-- `src/structured_values/standard_information.rs:107-109`, `maximum_versions`. -/
def maximumVersions (i : StdInfo) : Option Nat := i.ntfs3.map (·.maximumVersions)

/-- `src/structured_values/standard_information.rs:122-124`, `owner_id`. -/
def ownerId (i : StdInfo) : Option Nat := i.ntfs3.map (·.ownerId)

/-- `src/structured_values/standard_information.rs:127-129`, `quota_charged`. -/
def quotaCharged (i : StdInfo) : Option Nat := i.ntfs3.map (·.quotaCharged)

/-- `src/structured_values/standard_information.rs:132-134`, `security_id`. -/
def securityId (i : StdInfo) : Option Nat := i.ntfs3.map (·.securityId)

/-- `src/structured_values/standard_information.rs:137-139`, `usn`. -/
def usn (i : StdInfo) : Option Nat := i.ntfs3.map (·.usn)

/-- `src/structured_values/standard_information.rs:144-146`, `version`. -/
def version (i : StdInfo) : Option Nat := i.ntfs3.map (·.version)

end StdInfo

/-- `src/structured_values/file_name.rs:50-65`, `NtfsFileNamespace`. -/
inductive Namespace
  | posix
  | win32
  | dos
  | win32AndDos
  deriving DecidableEq, Repr

/-- `src/structured_values/file_name.rs:50-65`: `enumn`'s `n`. -/
def Namespace.ofCode : Nat → Option Namespace
  | 0 => some .posix
  | 1 => some .win32
  | 2 => some .dos
  | 3 => some .win32AndDos
  | _ => none

/-- `src/structured_values/file_name.rs:32-45, 79-83`, `NtfsFileName`. -/
structure FileName where
  parent : FileRef
  creationTime : Nat
  modificationTime : Nat
  mftRecordModificationTime : Nat
  accessTime : Nat
  allocatedSize : Nat
  dataSize : Nat
  rawFileAttributes : Nat
  reparsePointTag : Nat
  nameUnits : Nat
  namespaceCode : Nat
  name : Bytes
  deriving DecidableEq, Repr

namespace FileName

/-- `src/structured_values/file_name.rs:32-45`: 66 bytes decoded by `binrw`. -/
def ofHeader (h : Bytes) : Res FileName := do
  let parent ← idxRange h 0 8
  let creationTime ← readLE 8 h 8
  let modificationTime ← readLE 8 h 16
  let mftRecordModificationTime ← readLE 8 h 24
  let accessTime ← readLE 8 h 32
  let allocatedSize ← readLE 8 h 40
  let dataSize ← readLE 8 h 48
  let rawFileAttributes ← readLE 4 h 56
  let reparsePointTag ← readLE 4 h 60
  let nameUnits ← idxByte h 64
  let namespaceCode ← idxByte h 65
  pure { parent := { bytes := parent }, creationTime, modificationTime, mftRecordModificationTime,
         accessTime, allocatedSize, dataSize, rawFileAttributes, reparsePointTag, nameUnits,
         namespaceCode, name := [] }

/-- `src/structured_values/file_name.rs:217-219`, `name_length`. -/
abbrev nameLength (f : FileName) : Nat := f.nameUnits * 2

/-- `src/structured_values/file_name.rs:244-257`, `validate_name_length`. -/
def validateNameLength (f : FileName) (dataSize : Nat) (position : Pos) : Res Unit :=
  if 66 + f.nameLength > dataSize then
    .err (.invalidStructuredValueSize position .fileName dataSize (66 + f.nameLength))
  else .ok ()

/-- `src/structured_values/file_name.rs:259-268`, `validate_namespace`. -/
def validateNamespace (f : FileName) (position : Pos) : Res Unit :=
  match Namespace.ofCode f.namespaceCode with
  | some _ => .ok ()
  | none => .err (.unsupportedFileNamespace position f.namespaceCode)

/-- `src/structured_values/file_name.rs:86-110` (`new`) and 231-242 (`read_name`). -/
def new {σ : Type} (readExact : Nat → StM σ Bytes) (position : Pos) (len : Nat) : StM σ FileName :=
  if len < 68 then StM.fail (.invalidStructuredValueSize position .fileName 68 len)
  else do
    let h ← readExact 66
    let f ← StM.lift (ofHeader h)
    StM.lift (f.validateNameLength len position)
    StM.lift (f.validateNamespace position)
    let name ← readExact f.nameLength
    pure { f with name }

/-- `src/structured_values/file_name.rs:271-284`. -/
def structured : Structured FileName := { ty := .fileName, new := new }

/-- `src/structured_values/file_name.rs:287-294`, `key_from_slice`. -/
def keyFromSlice (slice : Bytes) (position : Pos) : Res FileName :=
  (new cursorReadExact position slice.length slice).1

/-- `src/structured_values/file_name.rs:179-181`, `file_attributes`. -/
def fileAttributes (f : FileName) : Nat := fromBitsTruncate fileAttributeBits f.rawFileAttributes

/-- `src/structured_values/file_name.rs:184-187`, `is_directory`. -/
def isDirectory (f : FileName) : Bool := f.fileAttributes &&& 0x10000000 == 0x10000000

/-- `src/structured_values/file_name.rs:222-224`, `namespace`. -/
def namespace' (f : FileName) : Res Namespace :=
  match Namespace.ofCode f.namespaceCode with
  | some n => .ok n
  | none => .panic .unwrap

end FileName

/-- `src/structured_values/volume_information.rs:21-27, 61-64`, `NtfsVolumeInformation` (the reserved
field is left out). -/
structure VolumeInfo where
  majorVersion : Nat
  minorVersion : Nat
  rawFlags : Nat
  deriving DecidableEq, Repr

namespace VolumeInfo

/-- `src/structured_values/volume_information.rs:21-27`: 12 bytes decoded by `binrw`. -/
def ofBytes (h : Bytes) : Res VolumeInfo := do
  let majorVersion ← idxByte h 8
  let minorVersion ← idxByte h 9
  let rawFlags ← readLE 2 h 10
  pure { majorVersion, minorVersion, rawFlags }

/-- `src/structured_values/volume_information.rs:67-83`, `new`. The error names the attribute type
`StandardInformation` (line 74). -/
def new {σ : Type} (readExact : Nat → StM σ Bytes) (position : Pos) (len : Nat) : StM σ VolumeInfo :=
  if len < 12 then StM.fail (.invalidStructuredValueSize position .standardInformation 12 len)
  else do
    let h ← readExact 12
    StM.lift (ofBytes h)

/-- `src/structured_values/volume_information.rs:101-124`. -/
def structured : Structured VolumeInfo := { ty := .volumeInformation, new := new }

/-- `src/structured_values/volume_information.rs:32-42`: the bits of `NtfsVolumeFlags`. -/
def flagBits : List Nat := [0x0001, 0x0002, 0x0004, 0x0008, 0x0010, 0x0020, 0x4000, 0x8000]

/-- `src/structured_values/volume_information.rs:86-88`, `flags`. -/
def flags (v : VolumeInfo) : Nat := fromBitsTruncate flagBits v.rawFlags

end VolumeInfo

/-- `src/structured_values/volume_name.rs:31-34`, `NtfsVolumeName`. -/
structure VolumeName where
  name : Bytes
  deriving DecidableEq, Repr

/-- `src/structured_values/volume_name.rs:37-57`, `new`. -/
def VolumeName.new {σ : Type} (readExact : Nat → StM σ Bytes) (position : Pos) (len : Nat) :
    StM σ VolumeName :=
  if len > 256 then StM.fail (.invalidStructuredValueSize position .volumeName 256 len)
  else do
    let name ← readExact len
    pure { name }

/-- `src/structured_values/volume_name.rs:72-95`. -/
def VolumeName.structured : Structured VolumeName := { ty := .volumeName, new := VolumeName.new }

/-- `src/structured_values/volume_name.rs:67-69`, `name_length`. -/
def VolumeName.nameLength (v : VolumeName) : Nat := v.name.length

/-- `src/guid.rs:12-18`, `NtfsGuid`. -/
structure Guid where
  data1 : Nat
  data2 : Nat
  data3 : Nat
  data4 : Bytes
  deriving DecidableEq, Repr

/-- `src/guid.rs:12-18`: 16 bytes decoded by `binrw`. -/
def Guid.ofBytes (h : Bytes) : Res Guid := do
  let data1 ← readLE 4 h 0
  let data2 ← readLE 2 h 4
  let data3 ← readLE 2 h 6
  let data4 ← idxRange h 8 16
  pure { data1, data2, data3, data4 }

/-- `src/structured_values/object_id.rs:23-29`, `NtfsObjectId`. -/
structure ObjectId where
  objectId : Guid
  birthVolumeId : Option Guid
  birthObjectId : Option Guid
  domainId : Option Guid
  deriving DecidableEq, Repr

namespace ObjectId

/-- `src/structured_values/object_id.rs:45`: `r.read_le::<NtfsGuid>()`. -/
def readGuid {σ : Type} (readExact : Nat → StM σ Bytes) : StM σ Guid := do
  let h ← readExact 16
  StM.lift (Guid.ofBytes h)

/-- `src/structured_values/object_id.rs:47-60`: one of the optional GUIDs. -/
def readGuidIf {σ : Type} (readExact : Nat → StM σ Bytes) (c : Bool) : StM σ (Option Guid) :=
  if c then do
    let g ← readGuid readExact
    pure (some g)
  else pure none

/-- `src/structured_values/object_id.rs:32-68`, `new`. -/
def new {σ : Type} (readExact : Nat → StM σ Bytes) (position : Pos) (len : Nat) : StM σ ObjectId :=
  if len < 16 then StM.fail (.invalidStructuredValueSize position .objectId 16 len)
  else do
    let objectId ← readGuid readExact
    let birthVolumeId ← readGuidIf readExact (decide (len ≥ 2 * 16))
    let birthObjectId ← readGuidIf readExact (decide (len ≥ 3 * 16))
    let domainId ← readGuidIf readExact (decide (len ≥ 4 * 16))
    pure { objectId, birthVolumeId, birthObjectId, domainId }

/-- `src/structured_values/object_id.rs:91-114`. -/
def structured : Structured ObjectId := { ty := .objectId, new := new }

end ObjectId

end NT
