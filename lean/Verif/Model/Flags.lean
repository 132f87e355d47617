import Verif.Model.Structured
import Verif.Model.Message

/-!
The text of flags. The crate declares its flags with `bitflags!` and prints them with the `Display` of the
inner type that this macro generates. `bitflags` (version 2) is a dependency: the functions `iterNames`,
`writeNames` and `flagsDisplay` follow its source and are part of the trusted base.
-/

namespace NT

/-- The constants of a `bitflags!` declaration in their order: name and bits. -/
abbrev FlagTable := List (List Char × Nat)

/-- `bitflags`, `IterNames::next` and `remaining` (trusted): the names of the constants whose bits are all set and
that cover a bit no earlier one covers, and the bits that no name covers. -/
def iterNames (source : Nat) : FlagTable → Nat → List (List Char) × Nat
  | [], remaining => ([], remaining)
  | (name, bits) :: rest, remaining =>
    if remaining = 0 then ([], remaining)
    else if source &&& bits = bits ∧ remaining &&& bits ≠ 0 then
      let r := iterNames source rest (remaining ^^^ (remaining &&& bits))
      (name :: r.1, r.2)
    else iterNames source rest remaining

/-- `bitflags`, the loop of `parser::to_writer` (trusted): the text written and the variable `first`. -/
def writeNames (first : Bool) : List (List Char) → List Char × Bool
  | [] => ([], first)
  | name :: rest =>
    let r := writeNames false rest
    ((if first then [] else [' ', '|', ' ']) ++ name ++ r.1, r.2)

/-- `bitflags`, `parser::to_writer` (trusted), which is the `Display` of the inner type; `src/attribute.rs:63-67`,
`src/file.rs:109-113`, `src/index_entry.rs:55-59`, `src/structured_values/mod.rs:78-82` and
`src/structured_values/volume_information.rs:45-49`, `fmt`, pass the formatter on to it. -/
def flagsDisplay (t : FlagTable) (x : Nat) : List Char :=
  let n := iterNames x t x
  let w := writeNames true n.1
  if n.2 = 0 then w.1
  else w.1 ++ (if w.2 then [] else [' ', '|', ' ']) ++ ('0' :: 'x' :: lowerHex n.2)

/-- `src/attribute.rs:50-61`, `NtfsAttributeFlags`. -/
def attributeFlagTable : FlagTable :=
  [("COMPRESSED".toList, 0x0001), ("ENCRYPTED".toList, 0x4000), ("SPARSE".toList, 0x8000)]

/-- `src/file.rs:98-107`, `NtfsFileFlags`. -/
def fileFlagTable : FlagTable := [("IN_USE".toList, 0x0001), ("IS_DIRECTORY".toList, 0x0002)]

/-- `src/index_entry.rs:44-53`, `NtfsIndexEntryFlags`. -/
def indexEntryFlagTable : FlagTable := [("HAS_SUBNODE".toList, 0x01), ("LAST_ENTRY".toList, 0x02)]

/-- `src/structured_values/mod.rs:33-76`, `NtfsFileAttributeFlags`. -/
def fileAttributeTable : FlagTable :=
  [("READ_ONLY".toList, 0x0001), ("HIDDEN".toList, 0x0002), ("SYSTEM".toList, 0x0004), ("ARCHIVE".toList, 0x0020),
    ("DEVICE".toList, 0x0040), ("NORMAL".toList, 0x0080), ("TEMPORARY".toList, 0x0100),
    ("SPARSE_FILE".toList, 0x0200), ("REPARSE_POINT".toList, 0x0400), ("COMPRESSED".toList, 0x0800),
    ("OFFLINE".toList, 0x1000), ("NOT_CONTENT_INDEXED".toList, 0x2000), ("ENCRYPTED".toList, 0x4000),
    ("IS_DIRECTORY".toList, 0x10000000)]

/-- `src/structured_values/volume_information.rs:30-43`, `NtfsVolumeFlags`. -/
def volumeFlagTable : FlagTable :=
  [("IS_DIRTY".toList, 0x0001), ("RESIZE_LOG_FILE".toList, 0x0002), ("UPGRADE_ON_MOUNT".toList, 0x0004),
    ("MOUNTED_ON_NT4".toList, 0x0008), ("DELETE_USN_UNDERWAY".toList, 0x0010), ("REPAIR_OBJECT_ID".toList, 0x0020),
    ("CHKDSK_UNDERWAY".toList, 0x4000), ("MODIFIED_BY_CHKDSK".toList, 0x8000)]

end NT
