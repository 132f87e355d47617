import Verif.Model.ShellMain
import Verif.Model.Flags

/-!
The text that the commands of the example shell print (`examples/ntfs-shell/main.rs`), line by line. A line is
what one `println!` writes without the newline at its end. Trusted: the formatting macros of the standard
library (fill, alignment, width, which counts characters), the `Display` that `strum` derives for
`NtfsAttributeType` (it honours the width), and the formatting of a time by the crate `time`, which is the
parameter `fmt` (nanoseconds since 1970 to text).
-/

namespace NT

/-- The formats `{:w}` and `{:<w}` of a string (standard library, trusted): spaces on the right. -/
def padRight (w : Nat) (s : List Char) : List Char := s ++ List.replicate (w - s.length) ' '

/-- The format `{:>w}` (standard library, trusted), and `{:>#wx}` applied to the hexadecimal text: spaces on the
left. -/
def padLeft (w : Nat) (s : List Char) : List Char := List.replicate (w - s.length) ' ' ++ s

/-- The format `{:=^w}` (standard library, trusted): `=` on both sides, the odd one on the right. -/
def centred (w : Nat) (s : List Char) : List Char :=
  List.replicate ((w - s.length) / 2) '=' ++ s ++ List.replicate (w - s.length - (w - s.length) / 2) '='

/-- The format `{}` of a `bool` (standard library, trusted). -/
def boolText (b : Bool) : List Char := if b then "true".toList else "false".toList

/-- The text inside quotation marks. -/
def quoted (s : List Char) : List Char := '"' :: (s ++ ['"'])

/-- `examples/ntfs-shell/main.rs:316-322`: a line of `dir`. `Display for U16StrLe` of the crate `nt-string`
(trusted) writes the lossy decoding. -/
def dirText (isDirectory : Bool) (name : Bytes) : List Char :=
  padRight 5 (if isDirectory then "<DIR>".toList else []) ++ ' ' :: ' ' :: lossy (u16s name)

/-- `examples/ntfs-shell/main.rs:130-131`, 154-155, 177, 195: the first column of `attr`, from the prefix. -/
def attrInstance (run nested : Bool) (n : Nat) : List Char :=
  (if run then (if nested then [' ', ' ', ' ', ' ', '□', ' '] else [' ', ' ', '■', ' '])
    else (if nested then [' ', ' ', '○', ' '] else ['●', ' '])) ++ dec n

/-- `examples/ntfs-shell/main.rs:184-187`, 199-202: a line of `attr`. -/
def AttrLine.text : AttrLine → List Char
  | .attribute nested inst ty resident record start length name =>
    padRight 10 (attrInstance false nested inst) ++ [' ', '|', ' '] ++ padRight 20 ty.debug ++ [' ', '|', ' '] ++
      padRight 8 (boolText resident) ++ [' ', '|', ' '] ++ padLeft 13 (hexAlt 0 record) ++ [' ', '|', ' '] ++
      padLeft 18 (posHex start) ++ [' ', '|', ' '] ++ padLeft 13 (dec length) ++ [' ', '|', ' '] ++ quoted name
  | .run nested index start length =>
    padRight 10 (attrInstance true nested index) ++ [' ', '|', ' '] ++ padRight 20 "DataRun".toList ++
      [' ', '|', ' '] ++ padRight 8 [] ++ [' ', '|', ' '] ++ padLeft 13 [] ++ [' ', '|', ' '] ++
      padLeft 18 (posHex start) ++ [' ', '|', ' '] ++ padLeft 13 (dec length) ++ [' ', '|']

/-- The format `{:w}` for the label, followed by a value. -/
def labelled (w : Nat) (label : String) (value : List Char) : List Char := padRight w label.toList ++ value

/-- `examples/ntfs-shell/main.rs:390-417`: `to_string` of a number, or `<NONE>`. -/
def optText : Option Nat → List Char
  | some n => dec n
  | none => "<NONE>".toList

/-- `src/structured_values/file_name.rs:49-65`, `Debug for NtfsFileNamespace` (derived): the name of the variant. -/
def Namespace.debug : Namespace → List Char
  | .posix => "Posix".toList
  | .win32 => "Win32".toList
  | .dos => "Dos".toList
  | .win32AndDos => "Win32AndDos".toList

/-- `examples/ntfs-shell/main.rs:364`, 432, 449: the headline of an attribute. Only these three types occur. -/
def headline : AttrType → List Char
  | .standardInformation => " STANDARD INFORMATION ".toList
  | .fileName => " FILE NAME ".toList
  | .data => " DATA STREAM ".toList
  | _ => []

/-- The lines of `fileinfo`. -/
def InfoLine.lines (fmt : Int → List Char) : InfoLine → List (List Char)
  /- `examples/ntfs-shell/main.rs:334-341` -/
  | .record allocated position dataSize links directory number seq =>
    [centred 72 " FILE RECORD ".toList, labelled 34 "Allocated Size:" (dec allocated),
      labelled 34 "Byte Position:" (posHex position), labelled 34 "Data Size:" (dec dataSize),
      labelled 34 "Hard-Link Count:" (dec links), labelled 34 "Is Directory:" (boolText directory),
      labelled 34 "Record Number:" (hexAlt 0 number), labelled 34 "Sequence Number:" (dec seq)]
  /- `examples/ntfs-shell/main.rs:363-364`, 431-432, 448-449 -/
  | .head t => [[], centred 72 (headline t)]
  /- `examples/ntfs-shell/main.rs:368-421` -/
  | .std i times =>
    labelled 34 "Attributes:" (flagsDisplay fileAttributeTable i.fileAttributes) ::
      (List.zipWith (fun l t => labelled 34 l (fmt t))
        ["Access Time:", "Creation Time:", "Modification Time:", "MFT Record Modification Time:"] times ++
      [labelled 34 "Class ID:" (optText (i.ntfs3.map (·.classId))),
        labelled 34 "Maximum Versions:" (optText (i.ntfs3.map (·.maximumVersions))),
        labelled 34 "Owner ID:" (optText (i.ntfs3.map (·.ownerId))),
        labelled 34 "Quota Charged:" (optText (i.ntfs3.map (·.quotaCharged))),
        labelled 34 "Security ID:" (optText (i.ntfs3.map (·.securityId))),
        labelled 34 "USN:" (optText (i.ntfs3.map (·.usn))),
        labelled 34 "Version:" (optText (i.ntfs3.map (·.version)))])
  /- `examples/ntfs-shell/main.rs:436-442` -/
  | .fileName name ns parent =>
    [labelled 34 "Name:" (quoted name), labelled 34 "Namespace:" ns.debug,
      labelled 34 "Parent Directory Record Number:" (hexAlt 0 parent)]
  /- `examples/ntfs-shell/main.rs:451` -/
  | .streamName name => [labelled 34 "Name:" (quoted name)]
  /- `examples/ntfs-shell/main.rs:452` -/
  | .streamSize size => [labelled 34 "Size:" (dec size)]

/-- The lines of `fsinfo`. -/
def FsLine.lines : FsLine → List (List Char)
  /- `examples/ntfs-shell/main.rs:461-463` -/
  | .layout clusterSize fileRecordSize mft =>
    [labelled 20 "Cluster Size:" (dec clusterSize), labelled 20 "File Record Size:" (dec fileRecordSize),
      labelled 20 "MFT Byte Position:" (posHex mft)]
  /- `examples/ntfs-shell/main.rs:466-471` -/
  | .version major minor => [labelled 20 "NTFS Version:" (dec major ++ '.' :: dec minor)]
  /- `examples/ntfs-shell/main.rs:473-475` -/
  | .size sectorSize serial total =>
    [labelled 20 "Sector Size:" (dec sectorSize), labelled 20 "Serial Number:" (dec serial),
      labelled 20 "Size:" (dec total)]
  /- `examples/ntfs-shell/main.rs:477-482` -/
  | .label (some name) => [labelled 20 "Volume Name:" (quoted (lossy (u16s name)))]
  | .label none => [labelled 20 "Volume Name:" "<NONE>".toList]

/-- `examples/ntfs-shell/main.rs:114-119`: the head of the table of `attr`. -/
def attrHeader : List (List Char) :=
  [List.replicate 110 '=',
    padRight 10 "INSTANCE".toList ++ [' ', '|', ' '] ++ padRight 20 "TYPE".toList ++ [' ', '|', ' '] ++
      padRight 8 "RESIDENT".toList ++ [' ', '|', ' '] ++ padRight 13 "RECORD NUMBER".toList ++ [' ', '|', ' '] ++
      padRight 18 "START".toList ++ [' ', '|', ' '] ++ padRight 13 "LENGTH".toList ++ [' ', '|', ' '] ++
      "NAME".toList,
    List.replicate 110 '=']

/-- `println!` (standard library, trusted) of each line. -/
def stdout (lines : List (List Char)) : List Char := lines.flatMap (· ++ ['\n'])

/-- External: what `Stdin::read_line`, called again and again at `examples/ntfs-shell/main.rs:71-72`, delivers of a text:
every line with its newline; after the end of the text it delivers nothing more. -/
def inputLines : List Char → List (List Char)
  | [] => []
  | c :: s =>
    if c = '\n' then [c] :: inputLines s
    else match inputLines s with
      | [] => [[c]]
      | l :: ls => (c :: l) :: ls

/-- The text of `dir`, `examples/ntfs-shell/main.rs:310-323`. -/
def dirStdout (l : List (Bool × Bytes)) : List Char := stdout (l.map fun e => dirText e.1 e.2)

/-- The text of `attr` and `attr_runs`, `examples/ntfs-shell/main.rs:114-206`. -/
def attrStdout (l : List AttrLine) : List Char := stdout (attrHeader ++ l.map AttrLine.text)

/-- The text of `fileinfo`, `examples/ntfs-shell/main.rs:334-455`. -/
def fileinfoStdout (fmt : Int → List Char) (l : List InfoLine) : List Char := stdout (l.flatMap (·.lines fmt))

/-- The text of `fsinfo`, `examples/ntfs-shell/main.rs:461-482`. -/
def fsinfoStdout (l : List FsLine) : List Char := stdout (l.flatMap FsLine.lines)

end NT
