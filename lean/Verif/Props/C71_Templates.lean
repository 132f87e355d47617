import Verif.Props.C71_Messages

/-! C71, continued: the whole text of every message, given by the format strings of the documentation with
the fields of the error under their names. -/

namespace NT

open Lean in
/-- `chars! "abc"` is the list `['a', 'b', 'c']`. -/
macro "chars!" s:str : term => do
  let cs := s.getString.toList.toArray.map (fun c => Syntax.mkCharLit c)
  `([$cs,*])

namespace Spec

/-- A field of an error. -/
inductive FieldVal
  | pos (p : Pos)
  | type (t : AttrType)
  | nat (n : Nat)
  | int (i : Int)
  | bytes (b : Bytes)
  | range (a b : Nat)
  | io (e : IoErr)

/-- The text of a field in the format `fmt`, the part behind the colon. -/
def FieldVal.format (dbg : IoErr → List Char) (fmt : List Char) : FieldVal → List Char
  | .pos p => if fmt = ['#', 'x'] then posHex p else []
  | .type t => if fmt = ['?'] then t.debug else []
  | .nat n =>
    if fmt = [] then dec n
    else if fmt = ['#', '0', '4', 'x'] then hexAlt 4 n
    else if fmt = ['#', '0', '1', '0', 'x'] then hexAlt 10 n
    else []
  | .int i => if fmt = [] then decInt i else []
  | .bytes b => if fmt = ['?'] then '[' :: (decItems b ++ [']']) else []
  | .range a b => if fmt = ['?'] then dec a ++ '.' :: '.' :: dec b else []
  | .io e => if fmt = ['?'] then dbg e else []

/-- The messages as they are documented, with the names of the fields in braces. -/
def template : Err → List Char
  | .attributeNotFound .. => -- src/error.rs:19
      chars! "The NTFS file at byte position {position:#x} has no attribute of type \
        {ty:?}, but it was expected"
  | .attributeOfDifferentType .. => -- src/error.rs:24
      chars! "The NTFS Attribute at byte position {position:#x} should have type \
        {expected:?}, but it actually has type {actual:?}"
  | .invalidAttributeLength .. => -- src/error.rs:32
      chars! "The NTFS Attribute at byte position {position:#x} has a length of \
        {expected} bytes, but only {actual} bytes are left in the record"
  | .invalidAttributeNameLength .. => -- src/error.rs:38
      chars! "The NTFS Attribute at byte position {position:#x} indicates a name \
        length up to offset {expected}, but the attribute only has a size of \
        {actual} bytes"
  | .invalidAttributeNameOffset .. => -- src/error.rs:44
      chars! "The NTFS Attribute at byte position {position:#x} indicates that its \
        name starts at offset {expected}, but the attribute only has a size of \
        {actual} bytes"
  | .invalidByteCountInDataRunHeader .. => -- src/error.rs:50
      chars! "The NTFS Data Run header at byte position {position:#x} indicates a \
        maximum byte count of {expected}, but {actual} is the limit"
  | .invalidClusterCountInDataRunHeader .. => -- src/error.rs:56
      chars! "The cluster count {cluster_count} read from the NTFS Data Run header at \
        byte position {position:#x} is invalid"
  | .invalidFileAllocatedSize .. => -- src/error.rs:61
      chars! "The NTFS File Record at byte position {position:#x} indicates an \
        allocated size of {expected} bytes, but the record only has a size of \
        {actual} bytes"
  | .invalidFileRecordNumber .. => -- src/error.rs:67
      chars! "The requested NTFS File Record Number {file_record_number} is invalid"
  | .invalidFileSignature .. => -- src/error.rs:69
      chars! "The NTFS File Record at byte position {position:#x} should have \
        signature {expected:?}, but it has signature {actual:?}"
  | .invalidFileUsedSize .. => -- src/error.rs:75
      chars! "The NTFS File Record at byte position {position:#x} indicates a used \
        size of {expected} bytes, but only {actual} bytes are allocated"
  | .invalidIndexAllocatedSize .. => -- src/error.rs:81
      chars! "The NTFS Index Record at byte position {position:#x} indicates an \
        allocated size of {expected} bytes, but the record only has a size of \
        {actual} bytes"
  | .invalidIndexEntryDataRange .. => -- src/error.rs:87
      chars! "The NTFS Index Entry at byte position {position:#x} references a data \
        field in the range {range:?}, but the entry only has a size of {size} \
        bytes"
  | .invalidIndexEntrySize .. => -- src/error.rs:93
      chars! "The NTFS Index Entry at byte position {position:#x} reports a size of \
        {expected} bytes, but it only has {actual} bytes"
  | .invalidIndexRootEntriesOffset .. => -- src/error.rs:99
      chars! "The NTFS index root at byte position {position:#x} indicates that its \
        entries start at offset {expected}, but the index root only has a size \
        of {actual} bytes"
  | .invalidIndexRootUsedSize .. => -- src/error.rs:105
      chars! "The NTFS index root at byte position {position:#x} indicates a used \
        size up to offset {expected}, but the index root only has a size of \
        {actual} bytes"
  | .invalidIndexSignature .. => -- src/error.rs:111
      chars! "The NTFS Index Record at byte position {position:#x} should have \
        signature {expected:?}, but it has signature {actual:?}"
  | .invalidIndexUsedSize .. => -- src/error.rs:117
      chars! "The NTFS Index Record at byte position {position:#x} indicates a used \
        size of {expected} bytes, but only {actual} bytes are allocated"
  | .invalidMftLcn => -- src/error.rs:123
      chars! "The MFT LCN in the BIOS Parameter Block of the NTFS filesystem is \
        invalid."
  | .invalidNonResidentValueDataRange .. => -- src/error.rs:125
      chars! "The NTFS Non Resident Value Data at byte position {position:#x} \
        references a data field in the range {range:?}, but the entry only has \
        a size of {size} bytes"
  | .invalidResidentAttributeValueLength .. => -- src/error.rs:131
      chars! "The resident NTFS Attribute at byte position {position:#x} indicates a \
        value length of {length} starting at offset {offset}, but the attribute \
        only has a size of {actual} bytes"
  | .invalidResidentAttributeValueOffset .. => -- src/error.rs:138
      chars! "The resident NTFS Attribute at byte position {position:#x} indicates \
        that its value starts at offset {expected}, but the attribute only has \
        a size of {actual} bytes"
  | .invalidRecordSizeInfo .. => -- src/error.rs:144
      chars! "A record size field in the BIOS Parameter Block denotes {size_info}, \
        which is invalid considering the cluster size of {cluster_size} bytes"
  | .invalidSectorsPerCluster .. => -- src/error.rs:146
      chars! "The sectors per cluster field in the BIOS Parameter Block denotes \
        {sectors_per_cluster:#04x}, which is invalid"
  | .invalidStructuredValueSize .. => -- src/error.rs:148
      chars! "The NTFS structured value at byte position {position:#x} of type {ty:?} \
        has {actual} bytes where {expected} bytes were expected"
  | .invalidTime => -- src/error.rs:155
      chars! "The given time can't be represented as an NtfsTime"
  | .invalidTwoByteSignature .. => -- src/error.rs:157
      chars! "The 2-byte signature field at byte position {position:#x} should \
        contain {expected:?}, but it contains {actual:?}"
  | .invalidUpcaseTableSize .. => -- src/error.rs:163
      chars! "The Upcase Table should have a size of {expected} bytes, but it has \
        {actual} bytes"
  | .invalidUpdateSequenceCount .. => -- src/error.rs:165
      chars! "The NTFS Update Sequence Count of the record at byte position \
        {position:#x} has the invalid value {update_sequence_count}"
  | .invalidUpdateSequenceNumberRange .. => -- src/error.rs:170
      chars! "The NTFS Update Sequence Number of the record at byte position \
        {position:#x} references a data field in the range {range:?}, but the \
        entry only has a size of {size} bytes"
  | .invalidVcnInDataRunHeader .. => -- src/error.rs:176
      chars! "The VCN {vcn} read from the NTFS Data Run header at byte position \
        {position:#x} cannot be added to the LCN {previous_lcn} calculated from \
        previous data runs"
  | .io .. => -- src/error.rs:182
      chars! "I/O error: {0:?}"
  | .lcnTooBig .. => -- src/error.rs:184
      chars! "The Logical Cluster Number (LCN) {lcn} is too big to be multiplied by \
        the cluster size"
  | .missingIndexAllocation .. => -- src/error.rs:186
      chars! "The index root at byte position {position:#x} is a large index, but no \
        matching index allocation attribute was provided"
  | .notADirectory .. => -- src/error.rs:188
      chars! "The NTFS file at byte position {position:#x} is not a directory"
  | .totalSectorsTooBig .. => -- src/error.rs:190
      chars! "The total sector count is too big to be multiplied by the sector size"
  | .unexpectedAttributeListAttribute .. => -- src/error.rs:192
      chars! "The NTFS Attribute at byte position {position:#x} should not belong to \
        an Attribute List, but it does"
  | .unexpectedNonResidentAttribute .. => -- src/error.rs:194
      chars! "The NTFS Attribute at byte position {position:#x} should be resident, \
        but it is non-resident"
  | .unexpectedResidentAttribute .. => -- src/error.rs:196
      chars! "The NTFS Attribute at byte position {position:#x} should be \
        non-resident, but it is resident"
  | .unsupportedAttributeType .. => -- src/error.rs:198
      chars! "The type of the NTFS Attribute at byte position {position:#x} is \
        {actual:#010x}, which is not supported"
  | .unsupportedClusterSize .. => -- src/error.rs:200
      chars! "The cluster size is {actual} bytes, but it needs to be between {min} \
        and {max}"
  | .unsupportedFileNamespace .. => -- src/error.rs:202
      chars! "The namespace of the NTFS file name starting at byte position \
        {position:#x} is {actual}, which is not supported"
  | .unsupportedSectorSize .. => -- src/error.rs:204
      chars! "The sector size is {actual} bytes, but it needs to be between {min} and \
        {max}"
  | .updateSequenceArrayExceedsRecordSize .. => -- src/error.rs:206
      chars! "The Update Sequence Array (USA) of the record at byte position \
        {position:#x} has entries for {array_count} blocks of 512 bytes, but \
        the record is only {record_size} bytes long"
  | .updateSequenceNumberMismatch .. => -- src/error.rs:212
      chars! "Sector corruption: The 2 bytes at byte position {position:#x} should \
        match the Update Sequence Number (USN) {expected:?}, but they are \
        {actual:?}"
  | .vcnMismatchInIndexAllocation .. => -- src/error.rs:218
      chars! "The index allocation at byte position {position:#x} references a \
        Virtual Cluster Number (VCN) {expected}, but a record with VCN {actual} \
        is found at that offset"
  | .vcnOutOfBoundsInIndexAllocation .. => -- src/error.rs:224
      chars! "The index allocation at byte position {position:#x} references a \
        Virtual Cluster Number (VCN) {vcn}, but this VCN exceeds the boundaries \
        of the filesystem"
  | .vcnTooBig .. => -- src/error.rs:226
      chars! "The Virtual Cluster Number (VCN) {vcn} is too big to be multiplied by \
        the cluster size"

/-- The fields of the errors under the names they are documented with. The expected signatures and the
position of the one in the boot sector are constants. -/
def fields : Err → List (List Char × FieldVal)
  | .attributeNotFound a b =>
      [(chars! "position", .pos a), (chars! "ty", .type b)]
  | .attributeOfDifferentType a b c =>
      [(chars! "position", .pos a), (chars! "expected", .type b), (chars! "actual", .type c)]
  | .invalidAttributeLength a b c =>
      [(chars! "position", .pos a), (chars! "expected", .nat b), (chars! "actual", .nat c)]
  | .invalidAttributeNameLength a b c =>
      [(chars! "position", .pos a), (chars! "expected", .nat b), (chars! "actual", .nat c)]
  | .invalidAttributeNameOffset a b c =>
      [(chars! "position", .pos a), (chars! "expected", .nat b), (chars! "actual", .nat c)]
  | .invalidByteCountInDataRunHeader a b c =>
      [(chars! "position", .pos a), (chars! "expected", .nat b), (chars! "actual", .nat c)]
  | .invalidClusterCountInDataRunHeader a b =>
      [(chars! "position", .pos a), (chars! "cluster_count", .nat b)]
  | .invalidFileAllocatedSize a b c =>
      [(chars! "position", .pos a), (chars! "expected", .nat b), (chars! "actual", .nat c)]
  | .invalidFileRecordNumber a =>
      [(chars! "file_record_number", .nat a)]
  | .invalidFileSignature a b =>
      [(chars! "position", .pos a), (chars! "expected", .bytes [0x46, 0x49, 0x4C, 0x45]),
       (chars! "actual", .bytes b)]
  | .invalidFileUsedSize a b c =>
      [(chars! "position", .pos a), (chars! "expected", .nat b), (chars! "actual", .nat c)]
  | .invalidIndexAllocatedSize a b c =>
      [(chars! "position", .pos a), (chars! "expected", .nat b), (chars! "actual", .nat c)]
  | .invalidIndexEntryDataRange a b c d =>
      [(chars! "position", .pos a), (chars! "range", .range b c), (chars! "size", .nat d)]
  | .invalidIndexEntrySize a b c =>
      [(chars! "position", .pos a), (chars! "expected", .nat b), (chars! "actual", .nat c)]
  | .invalidIndexRootEntriesOffset a b c =>
      [(chars! "position", .pos a), (chars! "expected", .nat b), (chars! "actual", .nat c)]
  | .invalidIndexRootUsedSize a b c =>
      [(chars! "position", .pos a), (chars! "expected", .nat b), (chars! "actual", .nat c)]
  | .invalidIndexSignature a b =>
      [(chars! "position", .pos a), (chars! "expected", .bytes [0x49, 0x4E, 0x44, 0x58]),
       (chars! "actual", .bytes b)]
  | .invalidIndexUsedSize a b c =>
      [(chars! "position", .pos a), (chars! "expected", .nat b), (chars! "actual", .nat c)]
  | .invalidMftLcn =>
      []
  | .invalidNonResidentValueDataRange a b c d =>
      [(chars! "position", .pos a), (chars! "range", .range b c), (chars! "size", .nat d)]
  | .invalidResidentAttributeValueLength a b c d =>
      [(chars! "position", .pos a), (chars! "length", .nat b),
       (chars! "offset", .nat c), (chars! "actual", .nat d)]
  | .invalidResidentAttributeValueOffset a b c =>
      [(chars! "position", .pos a), (chars! "expected", .nat b), (chars! "actual", .nat c)]
  | .invalidRecordSizeInfo a b =>
      [(chars! "size_info", .int a), (chars! "cluster_size", .nat b)]
  | .invalidSectorsPerCluster a =>
      [(chars! "sectors_per_cluster", .nat a)]
  | .invalidStructuredValueSize a b c d =>
      [(chars! "position", .pos a), (chars! "ty", .type b),
       (chars! "expected", .nat c), (chars! "actual", .nat d)]
  | .invalidTime =>
      []
  | .invalidTwoByteSignature a =>
      [(chars! "position", .pos (some 510)), (chars! "expected", .bytes [0x55, 0xAA]),
       (chars! "actual", .bytes a)]
  | .invalidUpcaseTableSize a b =>
      [(chars! "expected", .nat a), (chars! "actual", .nat b)]
  | .invalidUpdateSequenceCount a b =>
      [(chars! "position", .pos a), (chars! "update_sequence_count", .nat b)]
  | .invalidUpdateSequenceNumberRange a b c d =>
      [(chars! "position", .pos a), (chars! "range", .range b c), (chars! "size", .nat d)]
  | .invalidVcnInDataRunHeader a b c =>
      [(chars! "position", .pos a), (chars! "vcn", .int b), (chars! "previous_lcn", .nat c)]
  | .io a =>
      [(chars! "0", .io a)]
  | .lcnTooBig a =>
      [(chars! "lcn", .nat a)]
  | .missingIndexAllocation a =>
      [(chars! "position", .pos a)]
  | .notADirectory a =>
      [(chars! "position", .pos a)]
  | .totalSectorsTooBig a =>
      [(chars! "total_sectors", .nat a)]
  | .unexpectedAttributeListAttribute a =>
      [(chars! "position", .pos a)]
  | .unexpectedNonResidentAttribute a =>
      [(chars! "position", .pos a)]
  | .unexpectedResidentAttribute a =>
      [(chars! "position", .pos a)]
  | .unsupportedAttributeType a b =>
      [(chars! "position", .pos a), (chars! "actual", .nat b)]
  | .unsupportedClusterSize a b c =>
      [(chars! "min", .nat a), (chars! "max", .nat b), (chars! "actual", .nat c)]
  | .unsupportedFileNamespace a b =>
      [(chars! "position", .pos a), (chars! "actual", .nat b)]
  | .unsupportedSectorSize a b c =>
      [(chars! "min", .nat a), (chars! "max", .nat b), (chars! "actual", .nat c)]
  | .updateSequenceArrayExceedsRecordSize a b c =>
      [(chars! "position", .pos a), (chars! "array_count", .nat b), (chars! "record_size", .nat c)]
  | .updateSequenceNumberMismatch a b c =>
      [(chars! "position", .pos a), (chars! "expected", .bytes b), (chars! "actual", .bytes c)]
  | .vcnMismatchInIndexAllocation a b c =>
      [(chars! "position", .pos a), (chars! "expected", .int b), (chars! "actual", .int c)]
  | .vcnOutOfBoundsInIndexAllocation a b =>
      [(chars! "position", .pos a), (chars! "vcn", .int b)]
  | .vcnTooBig a =>
      [(chars! "vcn", .int a)]

/-- The field called `name`. -/
def fieldNamed (name : List Char) : List (List Char × FieldVal) → Option FieldVal
  | [] => none
  | (s, v) :: r => if s = name then some v else fieldNamed name r

/-- Where in a format string one is: in the text, in the name of a field, or in its format. -/
inductive Place
  | text
  | name (n : List Char)
  | format (n f : List Char)

/-- A format string with the fields filled in. -/
def fill (put : List Char → List Char → List Char) : Place → List Char → List Char
  | _, [] => []
  | .text, c :: r => if c = '{' then fill put (.name []) r else c :: fill put .text r
  | .name n, c :: r =>
    if c = '}' then put n [] ++ fill put .text r
    else if c = ':' then fill put (.format n []) r
    else fill put (.name (n ++ [c])) r
  | .format n f, c :: r =>
    if c = '}' then put n f ++ fill put .text r else fill put (.format n (f ++ [c])) r

/-- The text of the field `n` of the error `e` in the format `f`. -/
def put (dbg : IoErr → List Char) (e : Err) (n f : List Char) : List Char :=
  match fieldNamed n (fields e) with
  | some v => v.format dbg f
  | none => []

end Spec

open Spec

/-- `FieldVal.format` in front of a text. -/
def formatOn (dbg : IoErr → List Char) (fmt : List Char) (v : FieldVal) (r : List Char) : List Char :=
  match v with
  | .pos p => if fmt = ['#', 'x'] then posHex p ++ r else r
  | .type t => if fmt = ['?'] then t.debug ++ r else r
  | .nat n =>
    if fmt = [] then dec n ++ r
    else if fmt = ['#', '0', '4', 'x'] then hexAlt 4 n ++ r
    else if fmt = ['#', '0', '1', '0', 'x'] then hexAlt 10 n ++ r
    else r
  | .int i => if fmt = [] then decInt i ++ r else r
  | .bytes b => if fmt = ['?'] then '[' :: (decItems b ++ ']' :: r) else r
  | .range a b => if fmt = ['?'] then dec a ++ '.' :: '.' :: (dec b ++ r) else r
  | .io e => if fmt = ['?'] then dbg e ++ r else r

theorem formatOn_eq (dbg : IoErr → List Char) (fmt : List Char) (v : FieldVal) (r : List Char) :
    formatOn dbg fmt v r = v.format dbg fmt ++ r := by
  cases v <;> simp only [formatOn, FieldVal.format] <;> (repeat' split) <;> simp

/-- `put` in front of a text. -/
def putOn (dbg : IoErr → List Char) (e : Err) (n f r : List Char) : List Char :=
  match fieldNamed n (fields e) with
  | some v => formatOn dbg f v r
  | none => r

theorem putOn_eq (dbg : IoErr → List Char) (e : Err) (n f r : List Char) :
    putOn dbg e n f r = put dbg e n f ++ r := by
  unfold putOn put
  cases fieldNamed n (fields e) with
  | none => rfl
  | some v => exact formatOn_eq dbg f v r

/-- `fill` with the texts of the fields put in front of the rest. -/
def fillOn (putOn : List Char → List Char → List Char → List Char) : Place → List Char → List Char
  | _, [] => []
  | .text, c :: r => if c = '{' then fillOn putOn (.name []) r else c :: fillOn putOn .text r
  | .name n, c :: r =>
    if c = '}' then putOn n [] (fillOn putOn .text r)
    else if c = ':' then fillOn putOn (.format n []) r
    else fillOn putOn (.name (n ++ [c])) r
  | .format n f, c :: r =>
    if c = '}' then putOn n f (fillOn putOn .text r) else fillOn putOn (.format n (f ++ [c])) r

theorem fillOn_eq {po : List Char → List Char → List Char → List Char}
    {pu : List Char → List Char → List Char} (h : ∀ n f r, po n f r = pu n f ++ r) (p : Place)
    (l : List Char) : fillOn po p l = fill pu p l := by
  induction l generalizing p with
  | nil => cases p <;> rfl
  | cons c r ih =>
    cases p <;> simp only [fillOn, fill, ih, h]

/-- A piece of a format string. -/
inductive Chunk
  | text (s : List Char)
  | field (name : List Char) (fmt : Option (List Char))

/-- The characters of a piece. -/
def Chunk.chars : Chunk → List Char
  | .text s => s
  | .field n none => '{' :: (n ++ ['}'])
  | .field n (some f) => '{' :: (n ++ ':' :: (f ++ ['}']))

/-- The pieces can be told apart. -/
def Chunk.plain : Chunk → Bool
  | .text s => !s.contains '{'
  | .field n none => !n.contains '}' && !n.contains ':'
  | .field n (some f) => !n.contains '}' && !n.contains ':' && !f.contains '}'

/-- The pieces with the fields filled in. -/
def fillChunks (po : List Char → List Char → List Char → List Char) : List Chunk → List Char
  | [] => []
  | .text s :: r => (String.ofList s).toList ++ fillChunks po r
  | .field n none :: r => po n [] (fillChunks po r)
  | .field n (some f) :: r => po n f (fillChunks po r)

variable {po : List Char → List Char → List Char → List Char}

theorem fillOn_text (s t : List Char) (h : s.contains '{' = false) :
    fillOn po .text (s ++ t) = s ++ fillOn po .text t := by
  induction s with
  | nil => rfl
  | cons c s ih =>
    simp only [List.contains_cons, Bool.or_eq_false_iff, beq_eq_false_iff_ne] at h
    rw [List.cons_append, List.cons_append, fillOn, if_neg (Ne.symm h.1), ih h.2]

theorem fillOn_name (m s t : List Char) (h : s.contains '}' = false) (h' : s.contains ':' = false) :
    fillOn po (.name m) (s ++ t) = fillOn po (.name (m ++ s)) t := by
  induction s generalizing m with
  | nil => rw [List.append_nil]; rfl
  | cons c s ih =>
    simp only [List.contains_cons, Bool.or_eq_false_iff, beq_eq_false_iff_ne] at h h'
    rw [List.cons_append, fillOn, if_neg (Ne.symm h.1), if_neg (Ne.symm h'.1), ih _ h.2 h'.2,
      List.append_assoc]
    rfl

theorem fillOn_format (n m s t : List Char) (h : s.contains '}' = false) :
    fillOn po (.format n m) (s ++ t) = fillOn po (.format n (m ++ s)) t := by
  induction s generalizing m with
  | nil => rw [List.append_nil]; rfl
  | cons c s ih =>
    simp only [List.contains_cons, Bool.or_eq_false_iff, beq_eq_false_iff_ne] at h
    rw [List.cons_append, fillOn, if_neg (Ne.symm h.1), ih _ h.2, List.append_assoc]
    rfl

theorem fillOn_chunks (l : List Chunk) (h : l.all Chunk.plain = true) :
    fillOn po .text (l.flatMap Chunk.chars) = fillChunks po l := by
  induction l with
  | nil => rfl
  | cons x l ih =>
    rw [List.all_cons, Bool.and_eq_true] at h
    rw [List.flatMap_cons]
    have ih := ih h.2
    rcases x with s | ⟨n, _ | f⟩
    · simp only [Chunk.plain, Bool.not_eq_true'] at h
      rw [Chunk.chars, fillOn_text _ _ h.1, ih, fillChunks, String.toList_ofList]
    · simp only [Chunk.plain, Bool.and_eq_true, Bool.not_eq_true'] at h
      rw [Chunk.chars, List.cons_append, List.append_assoc, fillOn, if_pos rfl,
        fillOn_name _ _ _ h.1.1 h.1.2, List.cons_append, fillOn, if_pos rfl, List.nil_append, List.nil_append, ih,
        fillChunks]
    · simp only [Chunk.plain, Bool.and_eq_true, Bool.not_eq_true'] at h
      rw [Chunk.chars, List.cons_append, List.append_assoc, fillOn, if_pos rfl,
        fillOn_name _ _ _ h.1.1.1 h.1.1.2, List.cons_append, fillOn, if_neg (by decide), if_pos rfl, List.append_assoc,
        fillOn_format _ _ _ _ h.1.2, List.cons_append, fillOn, if_pos rfl, List.nil_append, List.nil_append, List.nil_append, ih,
        fillChunks]

/-- The format strings in pieces. -/
def chunks : Err → List Chunk
  | .attributeNotFound .. =>
      [.text (chars! "The NTFS file at byte position "),
       .field (chars! "position") (some (chars! "#x")),
       .text (chars! " has no attribute of type "),
       .field (chars! "ty") (some (chars! "?")),
       .text (chars! ", but it was expected")]
  | .attributeOfDifferentType .. =>
      [.text (chars! "The NTFS Attribute at byte position "),
       .field (chars! "position") (some (chars! "#x")),
       .text (chars! " should have type "),
       .field (chars! "expected") (some (chars! "?")),
       .text (chars! ", but it actually has type "),
       .field (chars! "actual") (some (chars! "?"))]
  | .invalidAttributeLength .. =>
      [.text (chars! "The NTFS Attribute at byte position "),
       .field (chars! "position") (some (chars! "#x")),
       .text (chars! " has a length of "),
       .field (chars! "expected") none,
       .text (chars! " bytes, but only "),
       .field (chars! "actual") none,
       .text (chars! " bytes are left in the record")]
  | .invalidAttributeNameLength .. =>
      [.text (chars! "The NTFS Attribute at byte position "),
       .field (chars! "position") (some (chars! "#x")),
       .text (chars! " indicates a name length up to offset "),
       .field (chars! "expected") none,
       .text (chars! ", but the attribute only has a size of "),
       .field (chars! "actual") none,
       .text (chars! " bytes")]
  | .invalidAttributeNameOffset .. =>
      [.text (chars! "The NTFS Attribute at byte position "),
       .field (chars! "position") (some (chars! "#x")),
       .text (chars! " indicates that its name starts at offset "),
       .field (chars! "expected") none,
       .text (chars! ", but the attribute only has a size of "),
       .field (chars! "actual") none,
       .text (chars! " bytes")]
  | .invalidByteCountInDataRunHeader .. =>
      [.text (chars! "The NTFS Data Run header at byte position "),
       .field (chars! "position") (some (chars! "#x")),
       .text (chars! " indicates a maximum byte count of "),
       .field (chars! "expected") none,
       .text (chars! ", but "),
       .field (chars! "actual") none,
       .text (chars! " is the limit")]
  | .invalidClusterCountInDataRunHeader .. =>
      [.text (chars! "The cluster count "),
       .field (chars! "cluster_count") none,
       .text (chars! " read from the NTFS Data Run header at byte position "),
       .field (chars! "position") (some (chars! "#x")),
       .text (chars! " is invalid")]
  | .invalidFileAllocatedSize .. =>
      [.text (chars! "The NTFS File Record at byte position "),
       .field (chars! "position") (some (chars! "#x")),
       .text (chars! " indicates an allocated size of "),
       .field (chars! "expected") none,
       .text (chars! " bytes, but the record only has a size of "),
       .field (chars! "actual") none,
       .text (chars! " bytes")]
  | .invalidFileRecordNumber .. =>
      [.text (chars! "The requested NTFS File Record Number "),
       .field (chars! "file_record_number") none,
       .text (chars! " is invalid")]
  | .invalidFileSignature .. =>
      [.text (chars! "The NTFS File Record at byte position "),
       .field (chars! "position") (some (chars! "#x")),
       .text (chars! " should have signature "),
       .field (chars! "expected") (some (chars! "?")),
       .text (chars! ", but it has signature "),
       .field (chars! "actual") (some (chars! "?"))]
  | .invalidFileUsedSize .. =>
      [.text (chars! "The NTFS File Record at byte position "),
       .field (chars! "position") (some (chars! "#x")),
       .text (chars! " indicates a used size of "),
       .field (chars! "expected") none,
       .text (chars! " bytes, but only "),
       .field (chars! "actual") none,
       .text (chars! " bytes are allocated")]
  | .invalidIndexAllocatedSize .. =>
      [.text (chars! "The NTFS Index Record at byte position "),
       .field (chars! "position") (some (chars! "#x")),
       .text (chars! " indicates an allocated size of "),
       .field (chars! "expected") none,
       .text (chars! " bytes, but the record only has a size of "),
       .field (chars! "actual") none,
       .text (chars! " bytes")]
  | .invalidIndexEntryDataRange .. =>
      [.text (chars! "The NTFS Index Entry at byte position "),
       .field (chars! "position") (some (chars! "#x")),
       .text (chars! " references a data field in the range "),
       .field (chars! "range") (some (chars! "?")),
       .text (chars! ", but the entry only has a size of "),
       .field (chars! "size") none,
       .text (chars! " bytes")]
  | .invalidIndexEntrySize .. =>
      [.text (chars! "The NTFS Index Entry at byte position "),
       .field (chars! "position") (some (chars! "#x")),
       .text (chars! " reports a size of "),
       .field (chars! "expected") none,
       .text (chars! " bytes, but it only has "),
       .field (chars! "actual") none,
       .text (chars! " bytes")]
  | .invalidIndexRootEntriesOffset .. =>
      [.text (chars! "The NTFS index root at byte position "),
       .field (chars! "position") (some (chars! "#x")),
       .text (chars! " indicates that its entries start at offset "),
       .field (chars! "expected") none,
       .text (chars! ", but the index root only has a size of "),
       .field (chars! "actual") none,
       .text (chars! " bytes")]
  | .invalidIndexRootUsedSize .. =>
      [.text (chars! "The NTFS index root at byte position "),
       .field (chars! "position") (some (chars! "#x")),
       .text (chars! " indicates a used size up to offset "),
       .field (chars! "expected") none,
       .text (chars! ", but the index root only has a size of "),
       .field (chars! "actual") none,
       .text (chars! " bytes")]
  | .invalidIndexSignature .. =>
      [.text (chars! "The NTFS Index Record at byte position "),
       .field (chars! "position") (some (chars! "#x")),
       .text (chars! " should have signature "),
       .field (chars! "expected") (some (chars! "?")),
       .text (chars! ", but it has signature "),
       .field (chars! "actual") (some (chars! "?"))]
  | .invalidIndexUsedSize .. =>
      [.text (chars! "The NTFS Index Record at byte position "),
       .field (chars! "position") (some (chars! "#x")),
       .text (chars! " indicates a used size of "),
       .field (chars! "expected") none,
       .text (chars! " bytes, but only "),
       .field (chars! "actual") none,
       .text (chars! " bytes are allocated")]
  | .invalidMftLcn =>
      [.text (chars! "The MFT LCN in the BIOS Parameter Block of the NTFS filesystem is invalid.")]
  | .invalidNonResidentValueDataRange .. =>
      [.text (chars! "The NTFS Non Resident Value Data at byte position "),
       .field (chars! "position") (some (chars! "#x")),
       .text (chars! " references a data field in the range "),
       .field (chars! "range") (some (chars! "?")),
       .text (chars! ", but the entry only has a size of "),
       .field (chars! "size") none,
       .text (chars! " bytes")]
  | .invalidResidentAttributeValueLength .. =>
      [.text (chars! "The resident NTFS Attribute at byte position "),
       .field (chars! "position") (some (chars! "#x")),
       .text (chars! " indicates a value length of "),
       .field (chars! "length") none,
       .text (chars! " starting at offset "),
       .field (chars! "offset") none,
       .text (chars! ", but the attribute only has a size of "),
       .field (chars! "actual") none,
       .text (chars! " bytes")]
  | .invalidResidentAttributeValueOffset .. =>
      [.text (chars! "The resident NTFS Attribute at byte position "),
       .field (chars! "position") (some (chars! "#x")),
       .text (chars! " indicates that its value starts at offset "),
       .field (chars! "expected") none,
       .text (chars! ", but the attribute only has a size of "),
       .field (chars! "actual") none,
       .text (chars! " bytes")]
  | .invalidRecordSizeInfo .. =>
      [.text (chars! "A record size field in the BIOS Parameter Block denotes "),
       .field (chars! "size_info") none,
       .text (chars! ", which is invalid considering the cluster size of "),
       .field (chars! "cluster_size") none,
       .text (chars! " bytes")]
  | .invalidSectorsPerCluster .. =>
      [.text (chars! "The sectors per cluster field in the BIOS Parameter Block denotes "),
       .field (chars! "sectors_per_cluster") (some (chars! "#04x")),
       .text (chars! ", which is invalid")]
  | .invalidStructuredValueSize .. =>
      [.text (chars! "The NTFS structured value at byte position "),
       .field (chars! "position") (some (chars! "#x")),
       .text (chars! " of type "),
       .field (chars! "ty") (some (chars! "?")),
       .text (chars! " has "),
       .field (chars! "actual") none,
       .text (chars! " bytes where "),
       .field (chars! "expected") none,
       .text (chars! " bytes were expected")]
  | .invalidTime =>
      [.text (chars! "The given time can't be represented as an NtfsTime")]
  | .invalidTwoByteSignature .. =>
      [.text (chars! "The 2-byte signature field at byte position "),
       .field (chars! "position") (some (chars! "#x")),
       .text (chars! " should contain "),
       .field (chars! "expected") (some (chars! "?")),
       .text (chars! ", but it contains "),
       .field (chars! "actual") (some (chars! "?"))]
  | .invalidUpcaseTableSize .. =>
      [.text (chars! "The Upcase Table should have a size of "),
       .field (chars! "expected") none,
       .text (chars! " bytes, but it has "),
       .field (chars! "actual") none,
       .text (chars! " bytes")]
  | .invalidUpdateSequenceCount .. =>
      [.text (chars! "The NTFS Update Sequence Count of the record at byte position "),
       .field (chars! "position") (some (chars! "#x")),
       .text (chars! " has the invalid value "),
       .field (chars! "update_sequence_count") none]
  | .invalidUpdateSequenceNumberRange .. =>
      [.text (chars! "The NTFS Update Sequence Number of the record at byte position "),
       .field (chars! "position") (some (chars! "#x")),
       .text (chars! " references a data field in the range "),
       .field (chars! "range") (some (chars! "?")),
       .text (chars! ", but the entry only has a size of "),
       .field (chars! "size") none,
       .text (chars! " bytes")]
  | .invalidVcnInDataRunHeader .. =>
      [.text (chars! "The VCN "),
       .field (chars! "vcn") none,
       .text (chars! " read from the NTFS Data Run header at byte position "),
       .field (chars! "position") (some (chars! "#x")),
       .text (chars! " cannot be added to the LCN "),
       .field (chars! "previous_lcn") none,
       .text (chars! " calculated from previous data runs")]
  | .io .. =>
      [.text (chars! "I/O error: "),
       .field (chars! "0") (some (chars! "?"))]
  | .lcnTooBig .. =>
      [.text (chars! "The Logical Cluster Number (LCN) "),
       .field (chars! "lcn") none,
       .text (chars! " is too big to be multiplied by the cluster size")]
  | .missingIndexAllocation .. =>
      [.text (chars! "The index root at byte position "),
       .field (chars! "position") (some (chars! "#x")),
       .text (chars! " is a large index, but no matching index allocation attribute was provided")]
  | .notADirectory .. =>
      [.text (chars! "The NTFS file at byte position "),
       .field (chars! "position") (some (chars! "#x")),
       .text (chars! " is not a directory")]
  | .totalSectorsTooBig .. =>
      [.text (chars! "The total sector count is too big to be multiplied by the sector size")]
  | .unexpectedAttributeListAttribute .. =>
      [.text (chars! "The NTFS Attribute at byte position "),
       .field (chars! "position") (some (chars! "#x")),
       .text (chars! " should not belong to an Attribute List, but it does")]
  | .unexpectedNonResidentAttribute .. =>
      [.text (chars! "The NTFS Attribute at byte position "),
       .field (chars! "position") (some (chars! "#x")),
       .text (chars! " should be resident, but it is non-resident")]
  | .unexpectedResidentAttribute .. =>
      [.text (chars! "The NTFS Attribute at byte position "),
       .field (chars! "position") (some (chars! "#x")),
       .text (chars! " should be non-resident, but it is resident")]
  | .unsupportedAttributeType .. =>
      [.text (chars! "The type of the NTFS Attribute at byte position "),
       .field (chars! "position") (some (chars! "#x")),
       .text (chars! " is "),
       .field (chars! "actual") (some (chars! "#010x")),
       .text (chars! ", which is not supported")]
  | .unsupportedClusterSize .. =>
      [.text (chars! "The cluster size is "),
       .field (chars! "actual") none,
       .text (chars! " bytes, but it needs to be between "),
       .field (chars! "min") none,
       .text (chars! " and "),
       .field (chars! "max") none]
  | .unsupportedFileNamespace .. =>
      [.text (chars! "The namespace of the NTFS file name starting at byte position "),
       .field (chars! "position") (some (chars! "#x")),
       .text (chars! " is "),
       .field (chars! "actual") none,
       .text (chars! ", which is not supported")]
  | .unsupportedSectorSize .. =>
      [.text (chars! "The sector size is "),
       .field (chars! "actual") none,
       .text (chars! " bytes, but it needs to be between "),
       .field (chars! "min") none,
       .text (chars! " and "),
       .field (chars! "max") none]
  | .updateSequenceArrayExceedsRecordSize .. =>
      [.text (chars! "The Update Sequence Array (USA) of the record at byte position "),
       .field (chars! "position") (some (chars! "#x")),
       .text (chars! " has entries for "),
       .field (chars! "array_count") none,
       .text (chars! " blocks of 512 bytes, but the record is only "),
       .field (chars! "record_size") none,
       .text (chars! " bytes long")]
  | .updateSequenceNumberMismatch .. =>
      [.text (chars! "Sector corruption: The 2 bytes at byte position "),
       .field (chars! "position") (some (chars! "#x")),
       .text (chars! " should match the Update Sequence Number (USN) "),
       .field (chars! "expected") (some (chars! "?")),
       .text (chars! ", but they are "),
       .field (chars! "actual") (some (chars! "?"))]
  | .vcnMismatchInIndexAllocation .. =>
      [.text (chars! "The index allocation at byte position "),
       .field (chars! "position") (some (chars! "#x")),
       .text (chars! " references a Virtual Cluster Number (VCN) "),
       .field (chars! "expected") none,
       .text (chars! ", but a record with VCN "),
       .field (chars! "actual") none,
       .text (chars! " is found at that offset")]
  | .vcnOutOfBoundsInIndexAllocation .. =>
      [.text (chars! "The index allocation at byte position "),
       .field (chars! "position") (some (chars! "#x")),
       .text (chars! " references a Virtual Cluster Number (VCN) "),
       .field (chars! "vcn") none,
       .text (chars! ", but this VCN exceeds the boundaries of the filesystem")]
  | .vcnTooBig .. =>
      [.text (chars! "The Virtual Cluster Number (VCN) "),
       .field (chars! "vcn") none,
       .text (chars! " is too big to be multiplied by the cluster size")]

theorem chunks_template (e : Err) :
    (chunks e).flatMap Chunk.chars = template e ∧ (chunks e).all Chunk.plain = true := by
  cases e <;> dsimp only [chunks, template] <;> decide +kernel

/-- C71: the message of an error is the documented format string with the fields filled in under their
names. -/
theorem C71_template (dbg : IoErr → List Char) (e : Err) :
    e.display dbg = fill (put dbg e) .text (template e) := by
  rw [← fillOn_eq (putOn_eq dbg e), ← (chunks_template e).1, fillOn_chunks _ (chunks_template e).2]
  cases e <;> rfl

/-- The message about the sector size, whose fields come in another order. -/
example (dbg : IoErr → List Char) :
    fill (put dbg (.unsupportedSectorSize 256 4096 8192)) .text
        (template (.unsupportedSectorSize 256 4096 8192)) =
      "The sector size is 8192 bytes, but it needs to be between 256 and 4096".toList := by
  rw [← C71_template]
  have h : (Err.unsupportedSectorSize 256 4096 8192).display dbg =
    (Err.unsupportedSectorSize 256 4096 8192).display (fun _ => []) := rfl
  rw [h]
  decide +kernel

end NT
