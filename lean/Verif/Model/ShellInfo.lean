import Verif.Model.Shell
import Verif.Model.Time

/-! The commands of the example shell that print: `fileinfo` and `fsinfo` (`examples/ntfs-shell/main.rs`).
What is printed is a list of lines with the values in them; the text of each is in `Model/ShellText.lean`. Simplified:
the values of one `InfoLine` or `FsLine` are computed before the first of its lines is printed. -/

namespace NT

/-- What `fileinfo` prints. -/
inductive InfoLine
  /-- `examples/ntfs-shell/main.rs:334-341`: the fields of the file record, as one line. -/
  | record (allocated : Nat) (position : Pos) (dataSize links : Nat) (directory : Bool) (number seq : Nat)
  /-- `examples/ntfs-shell/main.rs:363-364`, 431-432, 448-449: the headline of an attribute. -/
  | head (t : AttrType)
  /-- `examples/ntfs-shell/main.rs:368-421`: the standard information, and its four times (access, creation,
  modification, modification of the record) as nanoseconds since 1970. Formatting them is external. -/
  | std (info : StdInfo) (times : List Int)
  /-- `examples/ntfs-shell/main.rs:436-442`. -/
  | fileName (name : List Char) (ns : Namespace) (parent : Nat)
  /-- `examples/ntfs-shell/main.rs:451`. -/
  | streamName (name : List Char)
  /-- `examples/ntfs-shell/main.rs:452`. -/
  | streamSize (size : Nat)
  deriving DecidableEq, Repr

/-- `examples/ntfs-shell/main.rs:359-424`, `fileinfo_std`. -/
def fileinfoStd (a : Attr) : Res Unit × List InfoLine :=
  match (do
    let i ← a.residentStructuredValue StdInfo.structured
    let atime ← Time.toOffsetDateTime i.accessTime
    let ctime ← Time.toOffsetDateTime i.creationTime
    let mtime ← Time.toOffsetDateTime i.modificationTime
    let mmtime ← Time.toOffsetDateTime i.mftRecordModificationTime
    pure (InfoLine.std i [atime, ctime, mtime, mmtime]) : Res InfoLine) with
  | .ok l => (.ok (), [.head .standardInformation, l])
  | .err e => (.err e, [.head .standardInformation])
  | .panic p => (.panic p, [.head .standardInformation])
  | .diverge => (.diverge, [.head .standardInformation])

/-- `examples/ntfs-shell/main.rs:427-445`, `fileinfo_filename`. -/
def fileinfoFilename (a : Attr) (d : Dev) : Res Unit × List InfoLine × Dev :=
  match (do
    let n ← a.structuredValue FileName.structured
    let ns ← StM.lift n.namespace'
    pure (InfoLine.fileName (lossy (u16s n.name)) ns n.parent.fileRecordNumber) : StM Dev InfoLine) d with
  | (.ok l, d') => (.ok (), [.head .fileName, l], d')
  | (.err e, d') => (.err e, [.head .fileName], d')
  | (.panic p, d') => (.panic p, [.head .fileName], d')
  | (.diverge, d') => (.diverge, [.head .fileName], d')

/-- `examples/ntfs-shell/main.rs:447-455`, `fileinfo_data`. -/
def fileinfoData (a : Attr) : Res Unit × List InfoLine :=
  match a.name with
  | .ok b =>
    match a.valueLength with
    | .ok n => (.ok (), [.head .data, .streamName (lossy (u16s b)), .streamSize n])
    | .err e => (.err e, [.head .data, .streamName (lossy (u16s b))])
    | .panic p => (.panic p, [.head .data, .streamName (lossy (u16s b))])
    | .diverge => (.diverge, [.head .data, .streamName (lossy (u16s b))])
  | .err e => (.err e, [.head .data])
  | .panic p => (.panic p, [.head .data])
  | .diverge => (.diverge, [.head .data])

/-- `examples/ntfs-shell/main.rs:348-353`: one attribute. An unsupported type is passed over. -/
def fileinfoAttr (a : Attr) (d : Dev) : Res Unit × List InfoLine × Dev :=
  match a.ty with
  | .ok .standardInformation => ((fileinfoStd a).1, (fileinfoStd a).2, d)
  | .ok .fileName => fileinfoFilename a d
  | .ok .data => ((fileinfoData a).1, (fileinfoData a).2, d)
  | .ok _ => (.ok (), [], d)
  | .err _ => (.ok (), [], d)
  | .panic p => (.panic p, [], d)
  | .diverge => (.diverge, [], d)

/-- `examples/ntfs-shell/main.rs:343-356`: the loop over the attributes. `out` is what has been printed. -/
def fileinfoLoop : Nat → List InfoLine → Attrs × Dev → Res Unit × List InfoLine × Dev
  | 0, out, (_, d) => (.diverge, out, d)
  | n + 1, out, s =>
    match Attrs.next s with
    | (.ok none, (_, d)) => (.ok (), out, d)
    | (.ok (some i), (it, d)) =>
      match i.toAttribute with
      | .ok a =>
        match fileinfoAttr a d with
        | (.ok (), l, d') => fileinfoLoop n (out ++ l) (it, d')
        | (.err e, l, d') => (.err e, out ++ l, d')
        | (.panic p, l, d') => (.panic p, out ++ l, d')
        | (.diverge, l, d') => (.diverge, out ++ l, d')
      | .err e => (.err e, out, d)
      | .panic p => (.panic p, out, d)
      | .diverge => (.diverge, out, d)
    | (.err e, (_, d)) => (.err e, out, d)
    | (.panic p, (_, d)) => (.panic p, out, d)
    | (.diverge, (_, d)) => (.diverge, out, d)

/-- `examples/ntfs-shell/main.rs:334-341`. -/
def NFile.infoLine (f : NFile) : Res InfoLine := do
  let allocated ← f.allocatedSize
  let dataSize ← f.dataSize
  let links ← f.hardLinkCount
  let directory ← f.isDirectory
  let seq ← f.sequenceNumber
  pure (.record allocated f.position dataSize links directory f.fileRecordNumber seq)

/-- `examples/ntfs-shell/main.rs:334-356`: `fileinfo` of a file. -/
def NFile.fileinfo (f : NFile) (fuel : Nat) (d : Dev) : Res Unit × List InfoLine × Dev :=
  match (do
    let l ← f.infoLine
    let it ← f.attributes
    pure (l, it) : Res (InfoLine × Attrs)) with
  | .ok (l, it) => fileinfoLoop fuel [l] (it, d)
  | .err e => (.err e, [], d)
  | .panic p => (.panic p, [], d)
  | .diverge => (.diverge, [], d)

/-- `examples/ntfs-shell/main.rs:328-357`, `fileinfo`. -/
def Shell.fileinfo (s : Shell) (arg : List Char) (fuel : Nat) (d : Dev) :
    Res (Except ShellMsg Unit) × List InfoLine × Dev :=
  match s.parseFileArg arg fuel d with
  | (.ok (.error m), d') => (.ok (.error m), [], d')
  | (.ok (.ok f), d') =>
    match f.fileinfo fuel d' with
    | (.ok (), l, d2) => (.ok (.ok ()), l, d2)
    | (.err e, l, d2) => (.err e, l, d2)
    | (.panic p, l, d2) => (.panic p, l, d2)
    | (.diverge, l, d2) => (.diverge, l, d2)
  | (.err e, d') => (.err e, [], d')
  | (.panic p, d') => (.panic p, [], d')
  | (.diverge, d') => (.diverge, [], d')

/-- What `fsinfo` prints. -/
inductive FsLine
  /-- `examples/ntfs-shell/main.rs:461-463`. -/
  | layout (clusterSize fileRecordSize : Nat) (mft : Pos)
  /-- `examples/ntfs-shell/main.rs:465-471`. -/
  | version (major minor : Nat)
  /-- `examples/ntfs-shell/main.rs:473-475`. -/
  | size (sectorSize serial size : Nat)
  /-- `examples/ntfs-shell/main.rs:477-482`: `none` is `<NONE>`. -/
  | label (name : Option Bytes)
  deriving DecidableEq, Repr

/-- `examples/ntfs-shell/main.rs:457-485`, `fsinfo`. Errors of `volume_name` are shown as `<NONE>`. -/
def Ntfs.fsinfo (n : Ntfs) (d : Dev) : Res Unit × List FsLine × Dev :=
  let a := FsLine.layout n.clusterSize n.fileRecordSize n.mftPosition
  match n.volumeInfo d with
  | (.ok v, d1) =>
    let b := [a, FsLine.version v.majorVersion v.minorVersion, .size n.sectorSize n.serialNumber n.size]
    match n.volumeName d1 with
    | (.ok (some x), d2) => (.ok (), b ++ [.label (some x.name)], d2)
    | (.ok none, d2) => (.ok (), b ++ [.label none], d2)
    | (.err _, d2) => (.ok (), b ++ [.label none], d2)
    | (.panic p, d2) => (.panic p, b, d2)
    | (.diverge, d2) => (.diverge, b, d2)
  | (.err e, d1) => (.err e, [a], d1)
  | (.panic p, d1) => (.panic p, [a], d1)
  | (.diverge, d1) => (.diverge, [a], d1)

end NT
