import Verif.Model.Release
import Verif.Model.AttrList

/-! Whole operations of the library in a release build: opening a file, iterating an attribute list, and values that are
split over one. They differ from the debug versions only in what they call (`Record.fixupRel`, `DataRun.readRel`). The
`debug_assert!`s of `src/attribute.rs` stay in; they hold wherever these functions reach them, since `is_resident` has been
asked before. -/

namespace NT

/-- `src/file.rs:147-158`: the part of `NtfsFile::new` after the bytes have been read. -/
def NFile.ofBytesRel (ntfs : Ntfs) (data : Bytes) (position number : Nat) : Res NFile := do
  let record : Record := { data, position := some position }
  NFile.validateSignature record
  let record ← record.fixupRel
  let file : NFile := { ntfs, record, number }
  file.validateSizes
  pure file

/-- `src/file.rs:134-159`, `NtfsFile::new`. -/
def NFile.newRel (ntfs : Ntfs) (position number : Nat) : StM Dev NFile := do
  Dev.seekStart position
  let data ← Dev.readExact ntfs.fileRecordSize
  StM.lift (NFile.ofBytesRel ntfs data position number)

/-- `src/ntfs.rs:85-110`, `file`. -/
def Ntfs.fileRel (n : Ntfs) (number : Nat) : StM Dev NFile := do
  let offset ← StM.lift (Res.ofOption (.invalidFileRecordNumber number)
    (checkedMulU64 number n.fileRecordSize))
  match n.mftPosition with
  | none => StM.die .unwrap
  | some mftPos => do
    let mft ← NFile.newRel n mftPos 0
    let attr ← StM.lift (mft.findResidentAttribute .data none none)
    let v ← StM.lift attr.simpleValue
    match v.seek (.start offset) with
    | (.ok _, v') =>
      match v'.dataPosition with
      | some position => NFile.newRel n position number
      | none => StM.fail (.invalidFileRecordNumber number)
    | (.err e, _) => StM.fail e
    | (.panic p, _) => StM.die p
    | (.diverge, _) => StM.lift .diverge

/-- `NonRes.readRel` in the form `ReadFn`: `src/attribute_value/non_resident.rs:123-147`. -/
def NonRes.readFnRel : ReadFn (NonRes × Dev) := fun (v, d) buf =>
  let (r, v', buf', d') := v.readRel buf d
  (r, (v', d'), buf')

/-- `Read::read_exact` on an attached value, `src/attribute_value/non_resident.rs:242-249`. -/
def NonRes.readExactAttachedRel (n : Nat) : StM (NonRes × Dev) Bytes := fun (v, d) =>
  match readExactLoop NonRes.readFnRel (n + d.sched.length + 1) (v, d) [] (List.replicate n 0) with
  | (.ok (), s, buf) => (.ok buf, s)
  | (.err e, s, _) => (.err e.viaIo, s)
  | (.panic p, s, _) => (.panic p, s)
  | (.diverge, s, _) => (.diverge, s)

/-- `src/structured_values/attribute_list.rs:133-153`, `next_non_resident`. -/
def AttrList.nextNonResidentRel (v : NonRes) (d : Dev) : Res (Option ListEntry) × NonRes × Dev :=
  if v.streamPosition ≥ v.len then (.ok none, v, d)
  else
    match ListEntry.new NonRes.readExactAttachedRel v.dataPosition (v, d) with
    | (.ok e, (_, d')) =>
      match v.seek (.current e.length) with
      | (.ok _, v') => (.ok (some e), v', d')
      | (.err x, v') => (.err x, v', d')
      | (.panic p, v') => (.panic p, v', d')
      | (.diverge, v') => (.diverge, v', d')
    | (.err e, (_, d')) => (.err e, v, d')
    | (.panic p, (_, d')) => (.panic p, v, d')
    | (.diverge, (_, d')) => (.diverge, v, d')

/-- `src/structured_values/attribute_list.rs:123-131`, `NtfsAttributeListEntries::next`. -/
def AttrList.nextRel : StM (AttrList × Dev) (Option ListEntry) := fun (l, d) =>
  match l with
  | .resident slice position =>
    let (r, slice', position') := AttrList.nextResident slice position
    (r, (.resident slice' position', d))
  | .nonResident v =>
    let (r, v', d') := AttrList.nextNonResidentRel v d
    (r, (.nonResident v', d'))

namespace ALVal

/-- `src/attribute_value/attribute_list_non_resident.rs:304-317`, `AttributeListConnectedEntries::next`. -/
def nextConnectedRel : StM (ALVal × Dev) (Option ListEntry) := fun (v, d) =>
  match v.connected with
  | none => (.ok none, (v, d))
  | some l =>
    match AttrList.nextRel (l, d) with
    | (.ok none, (l', d')) => (.ok none, ({ v with connected := some l' }, d'))
    | (.ok (some e), (l', d')) =>
      if e.inst = v.inst then
        match e.ty with
        | .ok t =>
          if t = v.ty then (.ok (some e), ({ v with connected := some l' }, d'))
          else (.ok none, ({ v with connected := none }, d'))
        | .err x => (.err x, ({ v with connected := some l' }, d'))
        | .panic p => (.panic p, ({ v with connected := some l' }, d'))
        | .diverge => (.diverge, ({ v with connected := some l' }, d'))
      else (.ok none, ({ v with connected := none }, d'))
    | (.err x, (l', d')) => (.err x, ({ v with connected := some l' }, d'))
    | (.panic p, (l', d')) => (.panic p, ({ v with connected := some l' }, d'))
    | (.diverge, (l', d')) => (.diverge, ({ v with connected := some l' }, d'))

/-- `src/attribute_value/attribute_list_non_resident.rs:139-169`: the part of `next_attribute` that opens the attribute of
an entry. -/
def openEntryRel (ntfs : Ntfs) (e : ListEntry) : StM Dev (Option (DataRun × AttrState)) := do
  let file ← ntfs.fileRel e.ref.fileRecordNumber
  let a ← StM.lift (e.toAttribute file)
  if ← StM.lift a.isResident then StM.fail (.unexpectedResidentAttribute a.position)
  else do
    let (data, position) ← StM.lift a.nonResidentValueDataAndPosition
    match (DataRuns.new ntfs.clusterSize data position).next with
    | (none, _) => pure none
    | (some r, runs) => do
      let run ← StM.lift r
      pure (some (run, { file, offset := a.offset, runs := some runs.state }))

/-- `src/attribute_value/attribute_list_non_resident.rs:128-172`, `next_attribute`. -/
def nextAttributeRel : StM (ALVal × Dev) Bool := do
  match ← nextConnectedRel with
  | none => pure false
  | some e => fun (v, d) =>
    match openEntryRel v.ntfs e d with
    | (.ok none, d') => (.ok false, (v, d'))
    | (.ok (some (run, a)), d') =>
      (.ok true, ({ v with attrState := some a, st := { v.st with run := some run } }, d'))
    | (.err x, d') => (.err x, (v, d'))
    | (.panic p, d') => (.panic p, (v, d'))
    | (.diverge, d') => (.diverge, (v, d'))

/-- `src/attribute_value/attribute_list_non_resident.rs:207-220` and 251-266. -/
def advanceRel (v : ALVal) (d : Dev) : Res Bool × ALVal × Dev :=
  match v.nextDataRun with
  | (.ok true, v') => (.ok true, v', d)
  | (.ok false, v') => nextAttributeRel (v', d)
  | (.err e, v') => (.err e, v', d)
  | (.panic p, v') => (.panic p, v', d)
  | (.diverge, v') => (.diverge, v', d)

/-- `src/attribute_value/attribute_list_non_resident.rs:42-68`, `new`. -/
def newRel (ntfs : Ntfs) (entries : AttrList) (inst : Nat) (ty : AttrType) (dataSize : Nat) :
    StM Dev ALVal := fun d =>
  let v : ALVal :=
    { ntfs, initial := entries, connected := some entries, inst, ty, dataSize, attrState := none,
      st := StreamState.new dataSize }
  match nextAttributeRel (v, d) with
  | (.ok _, (v', d')) => (.ok v', d')
  | (.err e, (_, d')) => (.err e, d')
  | (.panic p, (_, d')) => (.panic p, d')
  | (.diverge, (_, d')) => (.diverge, d')

/-- `src/attribute_value/attribute_list_non_resident.rs:180-190`, `rewind`. -/
def rewindRel (v : ALVal) (d : Dev) : Res Unit × ALVal × Dev :=
  match nextAttributeRel
      ({ v with connected := some v.initial, st := StreamState.new v.len }, d) with
  | (.ok _, (v', d')) => (.ok (), v', d')
  | (.err e, (v', d')) => (.err e, v', d')
  | (.panic p, (v', d')) => (.panic p, v', d')
  | (.diverge, (v', d')) => (.diverge, v', d')

/-- `src/attribute_value/attribute_list_non_resident.rs:200-221`: the loop of `read`, with fuel. -/
def readLoopRel : Nat → ALVal → Bytes → Nat → Dev → Res Nat × ALVal × Bytes × Dev
  | 0, v, buf, _, d => (.diverge, v, buf, d)
  | fuel + 1, v, buf, bytesRead, d =>
    if bytesRead < buf.length then
      match v.st.readDataRunRel buf bytesRead d with
      | (.ok true, st', buf', bytesRead', d') =>
        readLoopRel fuel { v with st := st' } buf' bytesRead' d'
      | (.ok false, st', buf', bytesRead', d') =>
        match advanceRel { v with st := st' } d' with
        | (.ok true, v', d'') => readLoopRel fuel v' buf' bytesRead' d''
        | (.ok false, v', d'') => (.ok bytesRead', v', buf', d'')
        | (.err e, v', d'') => (.err e, v', buf', d'')
        | (.panic p, v', d'') => (.panic p, v', buf', d'')
        | (.diverge, v', d'') => (.diverge, v', buf', d'')
      | (.err e, st', buf', _, d') => (.err e, { v with st := st' }, buf', d')
      | (.panic p, st', buf', _, d') => (.panic p, { v with st := st' }, buf', d')
      | (.diverge, st', buf', _, d') => (.diverge, { v with st := st' }, buf', d')
    else (.ok bytesRead, v, buf, d)

/-- `src/attribute_value/attribute_list_non_resident.rs:194-224`, `read`. -/
def readRel (v : ALVal) (buf : Bytes) (d : Dev) : Res Nat × ALVal × Bytes × Dev :=
  readLoopRel (buf.length + v.runFuel + v.leftFuel) v buf 0 d

/-- `src/attribute_value/attribute_list_non_resident.rs:241-266`: the loop of `seek`, with fuel. -/
def seekLoopRel : Nat → ALVal → SeekFrom → Nat → Dev → Res Unit × ALVal × Dev
  | 0, v, _, _, d => (.diverge, v, d)
  | fuel + 1, v, pos, left, d =>
    if left > 0 then
      match v.st.seekDataRun pos left with
      | (.ok true, st', _) => (.ok (), { v with st := st' }, d)
      | (.ok false, st', left') =>
        match advanceRel { v with st := st' } d with
        | (.ok true, v', d') => seekLoopRel fuel v' pos left' d'
        | (.ok false, v', d') => (.ok (), { v' with st := { v'.st with run := none } }, d')
        | (.err e, v', d') => (.err e, v', d')
        | (.panic p, v', d') => (.panic p, v', d')
        | (.diverge, v', d') => (.diverge, v', d')
      | (.err e, st', _) => (.err e, { v with st := st' }, d)
      | (.panic p, st', _) => (.panic p, { v with st := st' }, d)
      | (.diverge, st', _) => (.diverge, { v with st := st' }, d)
    else (.ok (), v, d)

/-- `src/attribute_value/attribute_list_non_resident.rs:226-277`, `seek`: the addition of the new position wraps. -/
def seekRel (v : ALVal) (pos : SeekFrom) (d : Dev) : Res Nat × ALVal × Dev :=
  match v.st.optimizeSeek pos v.len with
  | .err e => (.err e, v, d)
  | .panic p => (.panic p, v, d)
  | .diverge => (.diverge, v, d)
  | .ok (.start n) =>
    match v.rewindRel d with
    | (.ok (), v1, d1) =>
      match seekLoopRel v.runFuel v1 (.start n) n d1 with
      | (.ok (), v2, d2) => (.ok n, { v2 with st := { v2.st with streamPosition := n } }, d2)
      | (.err e, v2, d2) => (.err e, v2, d2)
      | (.panic p, v2, d2) => (.panic p, v2, d2)
      | (.diverge, v2, d2) => (.diverge, v2, d2)
    | (.err e, v1, d1) => (.err e, v1, d1)
    | (.panic p, v1, d1) => (.panic p, v1, d1)
    | (.diverge, v1, d1) => (.diverge, v1, d1)
  | .ok (.current n) =>
    if 0 ≤ n then
      match seekLoopRel v.runFuel v (.current n) n.toNat d with
      | (.ok (), v2, d2) =>
        (.ok ((v2.st.streamPosition + n.toNat) % U64),
          { v2 with st := { v2.st with streamPosition := (v2.st.streamPosition + n.toNat) % U64 } }, d2)
      | (.err e, v2, d2) => (.err e, v2, d2)
      | (.panic p, v2, d2) => (.panic p, v2, d2)
      | (.diverge, v2, d2) => (.diverge, v2, d2)
    else (.panic .assert, v, d)
  | .ok (.end_ _) => (.panic .assert, v, d)

end ALVal

/-- `src/attribute.rs:498-524`, `value`. -/
def Attr.valueRel (a : Attr) : StM Dev Val :=
  match a.list with
  | some l => do
    let size ← StM.lift a.nonResidentValueDataSize
    let i ← StM.lift a.inst
    let t ← StM.lift a.ty
    let v ← ALVal.newRel a.file.ntfs l i t size
    pure (.list v)
  | none => do
    let v ← StM.lift a.simpleValue
    pure (.simple v)

end NT
