import Verif.Model.Structured
import Verif.Model.Upcase

/-! Lookups over the flattened attributes of a file: `src/file.rs` (`data`, `find_attribute`, `name`,
`info`), `src/ntfs.rs` (`root_directory`, `volume_info`, `volume_name`, `read_upcase_table`) and
`src/upcase_table.rs` (`read`).

The loops over `attributes()` have no bound that is visible in the record (an attribute list has its
own length), so these functions take the fuel as an argument; with too little of it the result is
`diverge`. -/

namespace NT

/-- The loops at `src/file.rs:227-242`, 322-337 and 454-480: get the next item, turn it into an
attribute, look at it with `pick` (`none` is `continue`). -/
def Attrs.search {α : Type} (pick : AttrItem → Attr → StM Dev (Option α)) :
    Nat → StM (Attrs × Dev) (Option α)
  | 0 => fun s => (.diverge, s)
  | fuel + 1 => do
    match ← Attrs.next with
    | none => pure none
    | some item => do
      let a ← StM.lift item.toAttribute
      match ← StM.onDev (pick item a) with
      | some x => pure (some x)
      | none => Attrs.search pick fuel

/-- `let mut iter = self.attributes();` followed by the loop. -/
def NFile.search {α : Type} (f : NFile) (pick : AttrItem → Attr → StM Dev (Option α)) (fuel : Nat) :
    StM Dev (Option α) := fun d =>
  match f.attributes with
  | .ok it =>
    let (r, (_, d')) := Attrs.search pick fuel (it, d)
    (r, d')
  | .err e => (.err e, d)
  | .panic p => (.panic p, d)
  | .diverge => (.diverge, d)

/-- `src/file.rs:218-225`: the comparison `equal`. The name asked for is given by its UTF-16 code
units. -/
def streamNameEqual (n : Ntfs) (asked : List Nat) (name : Bytes) : Res Bool :=
  if asked = [] then .ok (name == [])
  else do
    let o ← upcaseCmp n (u16s name) asked
    pure (o == .eq)

/-- `src/file.rs:231-241`: the body of the loop of `data`. -/
def pickData (n : Ntfs) (asked : List Nat) (item : AttrItem) (a : Attr) : Res (Option AttrItem) := do
  let t ← a.ty
  if t ≠ .data then pure none
  else do
    let name ← a.name
    if ← streamNameEqual n asked name then pure (some item) else pure none

/-- `src/file.rs:208-245`, `data`. `Some(Ok(item))` is `.ok (some item)`, `None` is `.ok none`,
`Some(Err(e))` is `.err e`. -/
def NFile.dataItem (f : NFile) (asked : List Nat) (fuel : Nat) : StM Dev (Option AttrItem) :=
  f.search (fun item a => StM.lift (pickData f.ntfs asked item a)) fuel

/-- `src/file.rs:326-336`: the body of the loop of `find_attribute`. -/
def pickAttribute (ty : AttrType) (name : Option (List Nat)) (item : AttrItem) (a : Attr) :
    Res (Option AttrItem) := do
  let t ← a.ty
  if t ≠ ty then pure none
  else if ← a.nameMatches name then pure (some item) else pure none

/-- `src/file.rs:311-343`, `find_attribute`. -/
def NFile.findAttribute (f : NFile) (ty : AttrType) (name : Option (List Nat)) (fuel : Nat) :
    StM Dev AttrItem := do
  match ← f.search (fun item a => StM.lift (pickAttribute ty name item a)) fuel with
  | some item => pure item
  | none => StM.fail (.attributeNotFound f.position ty)

/-- `src/file.rs:465-477`: the filters of `name`. -/
def FileName.matches (n : FileName) (ns : Option Namespace) (parent : Option Nat) : Res Bool := do
  let nsOk ← (match ns with
    | none => pure true
    | some x => do
      let y ← n.namespace'
      pure (y == x) : Res Bool)
  if !nsOk then pure false
  else
    match parent with
    | none => pure true
    | some p => pure (n.parent.fileRecordNumber == p)

/-- `src/file.rs:458-479`: the body of the loop of `name`. -/
def pickName (ns : Option Namespace) (parent : Option Nat) (a : Attr) : StM Dev (Option FileName) := do
  let t ← StM.lift a.ty
  if t ≠ .fileName then pure none
  else do
    let n ← a.structuredValue FileName.structured
    if ← StM.lift (n.matches ns parent) then pure (some n) else pure none

/-- `src/file.rs:443-483`, `name`. -/
def NFile.fileName (f : NFile) (ns : Option Namespace) (parent : Option Nat) (fuel : Nat) :
    StM Dev (Option FileName) :=
  f.search (fun _ a => pickName ns parent a) fuel

/-- `src/file.rs:393-402`, `find_resident_attribute_structured_value`. -/
def NFile.findResidentStructured {α : Type} (S : Structured α) (f : NFile) (name : Option (List Nat)) :
    Res α := do
  let a ← f.findResidentAttribute S.ty name none
  a.residentStructuredValue S

/-- `src/file.rs:426-428`, `info`. -/
def NFile.info (f : NFile) : Res StdInfo := f.findResidentStructured StdInfo.structured none

/-- `src/ntfs.rs:138-143`, `root_directory` (record number 5, `src/file.rs:59`). -/
def Ntfs.rootDirectory (n : Ntfs) : StM Dev NFile := n.file 5

/-- `src/ntfs.rs:173-179`, `volume_info` (record number 3, `src/file.rs:51`). -/
def Ntfs.volumeInfo (n : Ntfs) : StM Dev VolumeInfo := do
  let f ← n.file 3
  StM.lift (f.findResidentStructured VolumeInfo.structured none)

/-- `src/ntfs.rs:186-197`, `volume_name`. -/
def Ntfs.volumeName (n : Ntfs) : StM Dev (Option VolumeName) := do
  let f ← n.file 3
  match f.findResidentStructured VolumeName.structured none with
  | .ok v => pure (some v)
  | .err (.attributeNotFound _ _) => pure none
  | .err e => StM.fail e
  | .panic p => StM.die p
  | .diverge => StM.lift .diverge

/-- `src/file_reference.rs:38-43`, `to_file`. -/
def FileRef.toFile (r : FileRef) (n : Ntfs) : StM Dev NFile := n.file r.fileRecordNumber

/-- `read_exact` of a value into a new buffer of `n` bytes; the value is not used afterwards. -/
def Val.readInto (v : Val) (n : Nat) : StM Dev Bytes := fun d =>
  match v.readExact (List.replicate n 0) d with
  | (.ok (), (_, d'), buf) => (.ok buf, d')
  | (.err e, (_, d'), _) => (.err e, d')
  | (.panic p, (_, d'), _) => (.panic p, d')
  | (.diverge, (_, d'), _) => (.diverge, d')

/-- `src/upcase_table.rs:38-74`, `UpcaseTable::read` (record number 10, `src/file.rs:78`; table size at
lines 19-22). The table is a list of code units. -/
def Ntfs.readTable (n : Ntfs) (fuel : Nat) : StM Dev (List Nat) := do
  let f ← n.file 10
  match ← f.dataItem [] fuel with
  | none => StM.fail (.attributeNotFound f.position .data)
  | some item => do
    let a ← StM.lift item.toAttribute
    let len ← StM.lift a.valueLength
    if len ≠ 131072 then StM.fail (.invalidUpcaseTableSize 131072 len)
    else do
      let v ← a.value
      let buf ← v.readInto 131072
      pure (u16s buf)

/-- `src/ntfs.rs:128-135`, `read_upcase_table`: the volume afterwards. On an error it is unchanged. -/
def Ntfs.readUpcaseTable (n : Ntfs) (fuel : Nat) : StM Dev Ntfs := do
  let t ← n.readTable fuel
  pure { n with upcaseTable := some t }

end NT
