import Verif.Model.Guid

/-!
The texts of the errors: `Display for NtfsError`, derived by `displaydoc` from the doc comments of
`src/error.rs:18-228`. What the derive makes of a doc comment, and the formatting of numbers,
ranges, byte strings and fieldless enums by the standard library, are trusted.
-/

namespace NT

/-- A piece of a message: literal text of the format string, or a formatted argument. -/
inductive Piece
  | text (s : String)
  | arg (a : List Char)
  deriving DecidableEq, Repr

/-- `Display` of the unsigned integers (standard library, trusted): decimal without leading zeros. -/
def dec (n : Nat) : List Char :=
  if n < 10 then [Char.ofNat (48 + n)] else dec (n / 10) ++ [Char.ofNat (48 + n % 10)]
termination_by n

/-- `Display` of the signed integers (standard library, trusted); `src/types.rs:194-210`: that of
`Vcn` is derived from it. -/
def decInt (i : Int) : List Char := if i < 0 then '-' :: dec i.natAbs else dec i.natAbs

/-- The character of a hexadecimal digit, lower case. -/
def lowerDigit (n : Nat) : Char := if n < 10 then Char.ofNat (48 + n) else Char.ofNat (87 + n)

/-- `LowerHex` of the unsigned integers (standard library, trusted): no leading zeros. -/
def lowerHex (n : Nat) : List Char :=
  if n < 16 then [lowerDigit n] else lowerHex (n / 16) ++ [lowerDigit (n % 16)]
termination_by n

/-- The formats `{:#x}` (`w = 0`), `{:#04x}` (`w = 4`) and `{:#010x}` (`w = 10`) of the standard library
(trusted): `0x` and the digits, filled with zeros after the `0x` to the width `w`. -/
def hexAlt (w n : Nat) : List Char :=
  '0' :: 'x' :: (List.replicate (w - 2 - (lowerHex n).length) '0' ++ lowerHex n)

/-- `src/types.rs:28,107-114`, `LowerHex for NtfsPosition` with the format `{:#x}`. -/
def posHex : Pos → List Char
  | some n => hexAlt 0 n
  | none => "<NONE>".toList

/-- `src/attribute.rs:115-168`, `Debug for NtfsAttributeType` (derived): the name of the variant. -/
def AttrType.debug : AttrType → List Char
  | .standardInformation => "StandardInformation".toList
  | .attributeList => "AttributeList".toList
  | .fileName => "FileName".toList
  | .objectId => "ObjectId".toList
  | .securityDescriptor => "SecurityDescriptor".toList
  | .volumeName => "VolumeName".toList
  | .volumeInformation => "VolumeInformation".toList
  | .data => "Data".toList
  | .indexRoot => "IndexRoot".toList
  | .indexAllocation => "IndexAllocation".toList
  | .bitmap => "Bitmap".toList
  | .reparsePoint => "ReparsePoint".toList
  | .eaInformation => "EAInformation".toList
  | .ea => "EA".toList
  | .propertySet => "PropertySet".toList
  | .loggedUtilityStream => "LoggedUtilityStream".toList
  | .end_ => "End".toList

/-- The items of a slice or array of bytes in `Debug` format, without the brackets. -/
def decItems : Bytes → List Char
  | [] => []
  | [b] => dec b.toNat
  | b :: c :: r => dec b.toNat ++ ',' :: ' ' :: decItems (c :: r)

/-- `Debug` of slices and arrays of bytes (standard library, trusted), as in `[70, 73, 76, 69]`. -/
def bytesPieces (b : Bytes) : List Piece := [.text "[", .arg (decItems b), .text "]"]

/-- `Debug` of `Range<usize>` (standard library, trusted), as in `16..24`. -/
def rangePieces (a b : Nat) : List Piece := [.arg (dec a), .text "..", .arg (dec b)]

/-- `src/error.rs:18-228`, the format strings of the errors with their arguments filled in. `dbg` is
`Debug for std::io::Error` (external). Simplification: `BufferTooSmall` (`src/error.rs:30-31`), which
no code constructs, is left out; the constant fields (the expected signatures `src/file.rs:511`,
`src/index_record.rs:138`, `src/boot_sector.rs:207`, and the position of the signature of the boot
sector) are filled in here. -/
def Err.pieces (dbg : IoErr → List Char) : Err → List Piece
  | .attributeNotFound p t => -- src/error.rs:19
      [.text "The NTFS file at byte position ", .arg (posHex p),
       .text " has no attribute of type ", .arg t.debug, .text ", but it was expected"]
  | .attributeOfDifferentType p x y => -- src/error.rs:24
      [.text "The NTFS Attribute at byte position ", .arg (posHex p),
       .text " should have type ", .arg x.debug, .text ", but it actually has type ",
       .arg y.debug]
  | .invalidAttributeLength p x y => -- src/error.rs:32
      [.text "The NTFS Attribute at byte position ", .arg (posHex p),
       .text " has a length of ", .arg (dec x), .text " bytes, but only ", .arg (dec y),
       .text " bytes are left in the record"]
  | .invalidAttributeNameLength p x y => -- src/error.rs:38
      [.text "The NTFS Attribute at byte position ", .arg (posHex p),
       .text " indicates a name length up to offset ", .arg (dec x),
       .text ", but the attribute only has a size of ", .arg (dec y), .text " bytes"]
  | .invalidAttributeNameOffset p x y => -- src/error.rs:44
      [.text "The NTFS Attribute at byte position ", .arg (posHex p),
       .text " indicates that its name starts at offset ", .arg (dec x),
       .text ", but the attribute only has a size of ", .arg (dec y), .text " bytes"]
  | .invalidByteCountInDataRunHeader p x y => -- src/error.rs:50
      [.text "The NTFS Data Run header at byte position ", .arg (posHex p),
       .text " indicates a maximum byte count of ", .arg (dec x), .text ", but ", .arg (dec y),
       .text " is the limit"]
  | .invalidClusterCountInDataRunHeader p c => -- src/error.rs:56
      [.text "The cluster count ", .arg (dec c),
       .text " read from the NTFS Data Run header at byte position ", .arg (posHex p),
       .text " is invalid"]
  | .invalidFileAllocatedSize p x y => -- src/error.rs:61
      [.text "The NTFS File Record at byte position ", .arg (posHex p),
       .text " indicates an allocated size of ", .arg (dec x),
       .text " bytes, but the record only has a size of ", .arg (dec y), .text " bytes"]
  | .invalidFileRecordNumber n => -- src/error.rs:67
      [.text "The requested NTFS File Record Number ", .arg (dec n), .text " is invalid"]
  | .invalidFileSignature p y => -- src/error.rs:69
      [.text "The NTFS File Record at byte position ", .arg (posHex p),
       .text " should have signature "] ++
      bytesPieces [70, 73, 76, 69] ++
      [.text ", but it has signature "] ++
      bytesPieces y
  | .invalidFileUsedSize p x y => -- src/error.rs:75
      [.text "The NTFS File Record at byte position ", .arg (posHex p),
       .text " indicates a used size of ", .arg (dec x), .text " bytes, but only ",
       .arg (dec y), .text " bytes are allocated"]
  | .invalidIndexAllocatedSize p x y => -- src/error.rs:81
      [.text "The NTFS Index Record at byte position ", .arg (posHex p),
       .text " indicates an allocated size of ", .arg (dec x),
       .text " bytes, but the record only has a size of ", .arg (dec y), .text " bytes"]
  | .invalidIndexEntryDataRange p a b s => -- src/error.rs:87
      [.text "The NTFS Index Entry at byte position ", .arg (posHex p),
       .text " references a data field in the range "] ++
      rangePieces a b ++
      [.text ", but the entry only has a size of ", .arg (dec s), .text " bytes"]
  | .invalidIndexEntrySize p x y => -- src/error.rs:93
      [.text "The NTFS Index Entry at byte position ", .arg (posHex p),
       .text " reports a size of ", .arg (dec x), .text " bytes, but it only has ",
       .arg (dec y), .text " bytes"]
  | .invalidIndexRootEntriesOffset p x y => -- src/error.rs:99
      [.text "The NTFS index root at byte position ", .arg (posHex p),
       .text " indicates that its entries start at offset ", .arg (dec x),
       .text ", but the index root only has a size of ", .arg (dec y), .text " bytes"]
  | .invalidIndexRootUsedSize p x y => -- src/error.rs:105
      [.text "The NTFS index root at byte position ", .arg (posHex p),
       .text " indicates a used size up to offset ", .arg (dec x),
       .text ", but the index root only has a size of ", .arg (dec y), .text " bytes"]
  | .invalidIndexSignature p y => -- src/error.rs:111
      [.text "The NTFS Index Record at byte position ", .arg (posHex p),
       .text " should have signature "] ++
      bytesPieces [73, 78, 68, 88] ++
      [.text ", but it has signature "] ++
      bytesPieces y
  | .invalidIndexUsedSize p x y => -- src/error.rs:117
      [.text "The NTFS Index Record at byte position ", .arg (posHex p),
       .text " indicates a used size of ", .arg (dec x), .text " bytes, but only ",
       .arg (dec y), .text " bytes are allocated"]
  | .invalidMftLcn => -- src/error.rs:123
      [.text "The MFT LCN in the BIOS Parameter Block of the NTFS filesystem is invalid."]
  | .invalidNonResidentValueDataRange p a b s => -- src/error.rs:125
      [.text "The NTFS Non Resident Value Data at byte position ", .arg (posHex p),
       .text " references a data field in the range "] ++
      rangePieces a b ++
      [.text ", but the entry only has a size of ", .arg (dec s), .text " bytes"]
  | .invalidResidentAttributeValueLength p l o y => -- src/error.rs:131
      [.text "The resident NTFS Attribute at byte position ", .arg (posHex p),
       .text " indicates a value length of ", .arg (dec l), .text " starting at offset ",
       .arg (dec o), .text ", but the attribute only has a size of ", .arg (dec y),
       .text " bytes"]
  | .invalidResidentAttributeValueOffset p x y => -- src/error.rs:138
      [.text "The resident NTFS Attribute at byte position ", .arg (posHex p),
       .text " indicates that its value starts at offset ", .arg (dec x),
       .text ", but the attribute only has a size of ", .arg (dec y), .text " bytes"]
  | .invalidRecordSizeInfo i c => -- src/error.rs:144
      [.text "A record size field in the BIOS Parameter Block denotes ", .arg (decInt i),
       .text ", which is invalid considering the cluster size of ", .arg (dec c),
       .text " bytes"]
  | .invalidSectorsPerCluster s => -- src/error.rs:146
      [.text "The sectors per cluster field in the BIOS Parameter Block denotes ",
       .arg (hexAlt 4 s), .text ", which is invalid"]
  | .invalidStructuredValueSize p t x y => -- src/error.rs:148
      [.text "The NTFS structured value at byte position ", .arg (posHex p),
       .text " of type ", .arg t.debug, .text " has ", .arg (dec y), .text " bytes where ",
       .arg (dec x), .text " bytes were expected"]
  | .invalidTime => -- src/error.rs:155
      [.text "The given time can't be represented as an NtfsTime"]
  | .invalidTwoByteSignature y => -- src/error.rs:157
      [.text "The 2-byte signature field at byte position ", .arg (posHex (some 510)),
       .text " should contain "] ++
      bytesPieces [0x55, 0xAA] ++
      [.text ", but it contains "] ++
      bytesPieces y
  | .invalidUpcaseTableSize x y => -- src/error.rs:163
      [.text "The Upcase Table should have a size of ", .arg (dec x),
       .text " bytes, but it has ", .arg (dec y), .text " bytes"]
  | .invalidUpdateSequenceCount p c => -- src/error.rs:165
      [.text "The NTFS Update Sequence Count of the record at byte position ",
       .arg (posHex p), .text " has the invalid value ", .arg (dec c)]
  | .invalidUpdateSequenceNumberRange p a b s => -- src/error.rs:170
      [.text "The NTFS Update Sequence Number of the record at byte position ",
       .arg (posHex p), .text " references a data field in the range "] ++
      rangePieces a b ++
      [.text ", but the entry only has a size of ", .arg (dec s), .text " bytes"]
  | .invalidVcnInDataRunHeader p v l => -- src/error.rs:176
      [.text "The VCN ", .arg (decInt v),
       .text " read from the NTFS Data Run header at byte position ", .arg (posHex p),
       .text " cannot be added to the LCN ", .arg (dec l),
       .text " calculated from previous data runs"]
  | .io e => -- src/error.rs:182
      [.text "I/O error: ", .arg (dbg e)]
  | .lcnTooBig l => -- src/error.rs:184
      [.text "The Logical Cluster Number (LCN) ", .arg (dec l),
       .text " is too big to be multiplied by the cluster size"]
  | .missingIndexAllocation p => -- src/error.rs:186
      [.text "The index root at byte position ", .arg (posHex p),
       .text " is a large index, but no matching index allocation attribute was provided"]
  | .notADirectory p => -- src/error.rs:188
      [.text "The NTFS file at byte position ", .arg (posHex p), .text " is not a directory"]
  | .totalSectorsTooBig _ => -- src/error.rs:190
      [.text "The total sector count is too big to be multiplied by the sector size"]
  | .unexpectedAttributeListAttribute p => -- src/error.rs:192
      [.text "The NTFS Attribute at byte position ", .arg (posHex p),
       .text " should not belong to an Attribute List, but it does"]
  | .unexpectedNonResidentAttribute p => -- src/error.rs:194
      [.text "The NTFS Attribute at byte position ", .arg (posHex p),
       .text " should be resident, but it is non-resident"]
  | .unexpectedResidentAttribute p => -- src/error.rs:196
      [.text "The NTFS Attribute at byte position ", .arg (posHex p),
       .text " should be non-resident, but it is resident"]
  | .unsupportedAttributeType p y => -- src/error.rs:198
      [.text "The type of the NTFS Attribute at byte position ", .arg (posHex p),
       .text " is ", .arg (hexAlt 10 y), .text ", which is not supported"]
  | .unsupportedClusterSize a b y => -- src/error.rs:200
      [.text "The cluster size is ", .arg (dec y),
       .text " bytes, but it needs to be between ", .arg (dec a), .text " and ", .arg (dec b)]
  | .unsupportedFileNamespace p y => -- src/error.rs:202
      [.text "The namespace of the NTFS file name starting at byte position ",
       .arg (posHex p), .text " is ", .arg (dec y), .text ", which is not supported"]
  | .unsupportedSectorSize a b y => -- src/error.rs:204
      [.text "The sector size is ", .arg (dec y), .text " bytes, but it needs to be between ",
       .arg (dec a), .text " and ", .arg (dec b)]
  | .updateSequenceArrayExceedsRecordSize p c s => -- src/error.rs:206
      [.text "The Update Sequence Array (USA) of the record at byte position ",
       .arg (posHex p), .text " has entries for ", .arg (dec c),
       .text " blocks of 512 bytes, but the record is only ", .arg (dec s),
       .text " bytes long"]
  | .updateSequenceNumberMismatch p x y => -- src/error.rs:212
      [.text "Sector corruption: The 2 bytes at byte position ", .arg (posHex p),
       .text " should match the Update Sequence Number (USN) "] ++
      bytesPieces x ++
      [.text ", but they are "] ++
      bytesPieces y
  | .vcnMismatchInIndexAllocation p x y => -- src/error.rs:218
      [.text "The index allocation at byte position ", .arg (posHex p),
       .text " references a Virtual Cluster Number (VCN) ", .arg (decInt x),
       .text ", but a record with VCN ", .arg (decInt y), .text " is found at that offset"]
  | .vcnOutOfBoundsInIndexAllocation p v => -- src/error.rs:224
      [.text "The index allocation at byte position ", .arg (posHex p),
       .text " references a Virtual Cluster Number (VCN) ", .arg (decInt v),
       .text ", but this VCN exceeds the boundaries of the filesystem"]
  | .vcnTooBig v => -- src/error.rs:226
      [.text "The Virtual Cluster Number (VCN) ", .arg (decInt v),
       .text " is too big to be multiplied by the cluster size"]

/-- The text of a list of pieces. -/
def render : List Piece → List Char
  | [] => []
  | .text s :: r => s.toList ++ render r
  | .arg a :: r => a ++ render r

/-- `src/error.rs:16-228`, `Display for NtfsError` (derived by `displaydoc` from the doc comments);
`dbg` is `Debug for std::io::Error` (external). -/
def Err.display (dbg : IoErr → List Char) (e : Err) : List Char := render (e.pieces dbg)

end NT
