import Verif.Model.ReleaseOps
import Verif.Model.Index

/-! Attributes, directories and lookups in a release build. They differ from the debug versions only in what they call
(Model/Release.lean and Model/ReleaseOps.lean). Seeking in a value without an attribute list stays as it is: its addition
(`src/attribute_value/non_resident.rs:189`) cannot overflow. -/

namespace NT

namespace Attrs

/-- `src/attribute.rs:611-628`: the item for a list entry that is returned. -/
def itemOfRel (it : Attrs) (l : AttrList) (e : ListEntry) (t : AttrType) :
    StM Dev (AttrItem × Option (Nat × AttrType)) := do
  let file ← it.raw.file.ntfs.fileRel e.ref.fileRecordNumber
  let a ← StM.lift (e.toAttribute file)
  if ← StM.lift a.isResident then
    pure ({ file := it.raw.file, valueFile := some file, offset := a.offset, list := none }, none)
  else
    pure ({ file := it.raw.file, valueFile := some file, offset := a.offset, list := some l },
      some (e.inst, t))

/-- `src/attribute.rs:578-629`: the loop over the entries of an attribute list, with fuel. -/
def nextInListRel : Nat → AttrList → StM (Attrs × Dev) (Option AttrItem)
  | 0, _ => fun s => (.diverge, s)
  | fuel + 1, l => fun (it, d) =>
    match AttrList.nextRel (l, d) with
    | (.ok none, (l', d')) => (.ok none, ({ it with list := some l' }, d'))
    | (.ok (some e), (l', d')) =>
      let it1 : Attrs := { it with list := some l' }
      match e.ty with
      | .ok t =>
        if e.ref.fileRecordNumber = it.raw.file.number then nextInListRel fuel l' (it1, d')
        else if it.skip = some (e.inst, t) then nextInListRel fuel l' (it1, d')
        else
          match it.itemOfRel l e t d' with
          | (.ok (item, skip), d'') => (.ok (some item), ({ it1 with skip := skip }, d''))
          | (.err x, d'') => (.err x, ({ it1 with skip := none }, d''))
          | (.panic p, d'') => (.panic p, ({ it1 with skip := none }, d''))
          | (.diverge, d'') => (.diverge, ({ it1 with skip := none }, d''))
      | .err x => (.err x, (it1, d'))
      | .panic p => (.panic p, (it1, d'))
      | .diverge => (.diverge, (it1, d'))
    | (.err x, (l', d')) => (.err x, ({ it with list := some l' }, d'))
    | (.panic p, (l', d')) => (.panic p, ({ it with list := some l' }, d'))
    | (.diverge, (l', d')) => (.diverge, ({ it with list := some l' }, d'))

/-- `src/attribute.rs:577-630`: the part of the loop that handles the current attribute list. -/
def nextFromListRel : StM (Attrs × Dev) (Option AttrItem) := fun (it, d) =>
  match it.list with
  | none => (.ok none, (it, d))
  | some l => nextInListRel (l.remaining + 1) l (it, d)

end Attrs

/-- `src/attribute.rs:383-391`, `structured_value::<NtfsAttributeList>`. -/
def Attr.attributeListRel (a : Attr) : StM Dev AttrList := do
  StM.lift (a.ensureTy .attributeList)
  let v ← a.valueRel
  StM.lift (AttrList.ofValue v)

namespace Attrs

/-- `src/attribute.rs:576-646`: the loop of `next`, with fuel. -/
def nextLoopRel : Nat → StM (Attrs × Dev) (Option AttrItem)
  | 0 => fun s => (.diverge, s)
  | fuel + 1 => do
    match ← nextFromListRel with
    | some item => pure (some item)
    | none => fun (it, d) =>
      match it.raw.next with
      | (none, raw') => (.ok none, ({ it with raw := raw' }, d))
      | (some (.ok a), raw') =>
        let it1 : Attrs := { it with raw := raw' }
        match a.ty with
        | .ok .attributeList =>
          match a.attributeListRel d with
          | (.ok l, d') => nextLoopRel fuel ({ it1 with list := some l }, d')
          | (.err x, d') => (.err x, (it1, d'))
          | (.panic p, d') => (.panic p, (it1, d'))
          | (.diverge, d') => (.diverge, (it1, d'))
        | .panic p => (.panic p, (it1, d))
        | .diverge => (.diverge, (it1, d))
        | _ =>
          (.ok (some { file := it.raw.file, valueFile := none, offset := a.offset, list := none }),
            (it1, d))
      | (some (.err x), raw') => (.err x, ({ it with raw := raw' }, d))
      | (some (.panic p), raw') => (.panic p, ({ it with raw := raw' }, d))
      | (some .diverge, raw') => (.diverge, ({ it with raw := raw' }, d))

/-- `src/attribute.rs:572-647`, `NtfsAttributes::next`. -/
def nextRel : StM (Attrs × Dev) (Option AttrItem) := fun (it, d) =>
  nextLoopRel (it.raw.file.recordData.length + 1) (it, d)

/-- The loops at `src/file.rs:227-242` and 322-337 (`Attrs.search`), with a `pick` that only looks at bytes in memory. -/
def searchRel {α : Type} (pick : AttrItem → Attr → Res (Option α)) : Nat → StM (Attrs × Dev) (Option α)
  | 0 => fun s => (.diverge, s)
  | fuel + 1 => do
    match ← nextRel with
    | none => pure none
    | some item => do
      let a ← StM.lift item.toAttribute
      match ← StM.onDev (StM.lift (pick item a)) with
      | some x => pure (some x)
      | none => searchRel pick fuel

end Attrs

/-- `let mut iter = self.attributes();` followed by the loop (`src/file.rs:227`, 322). -/
def NFile.searchRel {α : Type} (f : NFile) (pick : AttrItem → Attr → Res (Option α)) (fuel : Nat) :
    StM Dev (Option α) := fun d =>
  match f.attributes with
  | .ok it =>
    let (r, (_, d')) := Attrs.searchRel pick fuel (it, d)
    (r, d')
  | .err e => (.err e, d)
  | .panic p => (.panic p, d)
  | .diverge => (.diverge, d)

/-- `src/file.rs:208-245`, `data`. -/
def NFile.dataItemRel (f : NFile) (asked : List Nat) (fuel : Nat) : StM Dev (Option AttrItem) :=
  f.searchRel (pickData f.ntfs asked) fuel

/-- `src/file.rs:311-343`, `find_attribute`. -/
def NFile.findAttributeRel (f : NFile) (ty : AttrType) (name : Option (List Nat)) (fuel : Nat) :
    StM Dev AttrItem := do
  match ← f.searchRel (pickAttribute ty name) fuel with
  | some item => pure item
  | none => StM.fail (.attributeNotFound f.position ty)

namespace Val

/-- `src/attribute_value/mod.rs:74-83`, `read`. -/
def readRel (v : Val) (buf : Bytes) (d : Dev) : Res Nat × Val × Bytes × Dev :=
  match v with
  | simple (.res v) => (simple (.res v)).read buf d
  | simple (.nonRes v) => let (r, v', buf', d') := v.readRel buf d; (r, simple (.nonRes v'), buf', d')
  | list v => let (r, v', buf', d') := v.readRel buf d; (r, list v', buf', d')

/-- `src/attribute_value/mod.rs:85-94`, `seek`. -/
def seekRel (v : Val) (pos : SeekFrom) (d : Dev) : Res Nat × Val × Dev :=
  match v with
  | simple v => let (r, v') := v.seek pos; (r, simple v', d)
  | list v => let (r, v', d') := v.seekRel pos d; (r, list v', d')

/-- `Val.readRel` in the form `ReadFn`: `src/attribute_value/mod.rs:74-83`. -/
def readFnRel : ReadFn (Val × Dev) := fun (v, d) buf =>
  let (r, v', buf', d') := v.readRel buf d
  (r, (v', d'), buf')

/-- `read_exact` (`src/traits.rs:21-46`) of a value into a new buffer of `n` bytes; the value is not used afterwards. -/
def readIntoRel (v : Val) (n : Nat) : StM Dev Bytes := fun d =>
  match readExactLoop readFnRel (n + d.sched.length + 1) (v, d) [] (List.replicate n 0) with
  | (.ok (), (_, d'), buf) => (.ok buf, d')
  | (.err e, (_, d'), _) => (.err e, d')
  | (.panic p, (_, d'), _) => (.panic p, d')
  | (.diverge, (_, d'), _) => (.diverge, d')

end Val

/-- `src/index_record.rs:59-80`, `new`. -/
def IndexRecord.newRel (value : Val) (size : Nat) : StM Dev IndexRecord := do
  let data ← value.readIntoRel size
  StM.lift (IndexRecord.ofBytesRel data value.dataPosition)

/-- `Val.seekRel` with the device as state and the value returned (`src/structured_values/index_allocation.rs:58`). -/
def IndexAllocation.seekToRel (v : Val) (pos : SeekFrom) : StM Dev Val := fun d =>
  match v.seekRel pos d with
  | (.ok _, v', d') => (.ok v', d')
  | (.err e, _, d') => (.err e, d')
  | (.panic p, _, d') => (.panic p, d')
  | (.diverge, _, d') => (.diverge, d')

/-- `src/structured_values/index_allocation.rs:46-80`, `record_from_vcn`. -/
def IndexAllocation.recordFromVcnRel (a : IndexAllocation) (size : Nat) (vcn : Int) : StM Dev IndexRecord := do
  let offset ← StM.lift (Vcn.offset vcn a.clusterSize)
  let value ← IndexAllocation.seekToRel a.value (.current offset)
  if value.streamPosition ≥ value.len then
    StM.fail (.vcnOutOfBoundsInIndexAllocation a.value.dataPosition vcn)
  else do
    let record ← IndexRecord.newRel value size
    let actual ← StM.lift record.vcn
    if actual ≠ vcn then
      StM.fail (.vcnMismatchInIndexAllocation a.value.dataPosition vcn actual)
    else pure record

/-- `src/attribute.rs:383-391`, `structured_value::<NtfsIndexAllocation>`. -/
def Attr.indexAllocationRel (a : Attr) : StM Dev IndexAllocation := do
  StM.lift (a.ensureTy .indexAllocation)
  let v ← a.valueRel
  StM.lift (IndexAllocation.ofValue v)

/-- `src/index.rs:165-183` and `src/index.rs:303-318`: the entries of the subnode with a given VCN. -/
def Index.subnodeRel (ix : Index) (vcn : Int) : StM Dev NodeRanges := do
  let item ← StM.lift (Res.ofOption (.missingIndexAllocation ix.rootPosition) ix.allocationItem)
  let a ← StM.lift item.toAttribute
  let allocation ← a.indexAllocationRel
  let record ← allocation.recordFromVcnRel ix.recordSize vcn
  StM.lift record.intoEntryRangesRel

namespace IndexEntries

/-- `src/index.rs:149-222`: the loop of `next`, with fuel. -/
def loopRel (ix : Index) : Nat → StM (IndexEntries × Dev) (Option EntryRange)
  | 0 => fun s => (.diverge, s)
  | fuel + 1 => fun (it, d) =>
    match it.inner with
    | [] => (.ok none, (it, d))
    | top :: below =>
      match top.next with
      | (.ok (some r), top') =>
        let it1 : IndexEntries := { it with inner := top' :: below }
        match inspect r top'.data with
        | .ok (last, some vcn) =>
          match ix.subnodeRel vcn d with
          | (.ok sub, d') =>
            loopRel ix fuel ({ inner := sub :: top' :: below,
                               following := (if last then none else some r) :: it.following }, d')
          | (.err x, d') => (.err x, (it1, d'))
          | (.panic p, d') => (.panic p, (it1, d'))
          | (.diverge, d') => (.diverge, (it1, d'))
        | .ok (last, none) =>
          if last then loopRel ix fuel (it1, d) else (.ok (some r), (it1, d))
        | .err x => (.err x, (it1, d))
        | .panic p => (.panic p, (it1, d))
        | .diverge => (.diverge, (it1, d))
      | (.ok none, _) =>
        match it.following with
        | [] => (.ok none, ({ it with inner := below }, d))
        | some r :: rest => (.ok (some r), ({ inner := below, following := rest }, d))
        | none :: rest => loopRel ix fuel ({ inner := below, following := rest }, d)
      | (.err x, top') => (.err x, ({ it with inner := top' :: below }, d))
      | (.panic p, top') => (.panic p, ({ it with inner := top' :: below }, d))
      | (.diverge, top') => (.diverge, ({ it with inner := top' :: below }, d))

/-- `src/index.rs:127-228`, `NtfsIndexEntries::next`. -/
def nextRel (ix : Index) (fuel : Nat) : StM (IndexEntries × Dev) (Option IEntry) := fun s =>
  match loopRel ix fuel s with
  | (.ok none, s') => (.ok none, s')
  | (.ok (some r), s') =>
    match entryOf r s'.1 with
    | .ok e => (.ok (some e), s')
    | .err x => (.err x, s')
    | .panic p => (.panic p, s')
    | .diverge => (.diverge, s')
  | (.err x, s') => (.err x, s')
  | (.panic p, s') => (.panic p, s')
  | (.diverge, s') => (.diverge, s')

end IndexEntries

namespace Index

/-- `src/index.rs:267-319`: the loop of `find`, with fuel. -/
def findLoopRel {κ : Type} (keyFromSlice : Bytes → Pos → Res κ) (cmp : κ → Res Ordering) (ix : Index) :
    Nat → NodeRanges → StM Dev (Option IEntry)
  | 0, _ => StM.lift .diverge
  | fuel + 1, it => fun d =>
    match it.next with
    | (.ok none, _) => (.ok none, d)
    | (.ok (some r), it') =>
      match r.toEntry it'.data with
      | .ok e =>
        match judge keyFromSlice cmp e with
        | .ok (some true) => (r.toEntry it'.data >>= fun e => .ok (some e), d)
        | .ok (some false) => findLoopRel keyFromSlice cmp ix fuel it' d
        | .ok none =>
          match e.subnodeVcn with
          | .ok none => (.ok none, d)
          | .ok (some vcn) =>
            match ix.subnodeRel vcn d with
            | (.ok sub, d') => findLoopRel keyFromSlice cmp ix fuel sub d'
            | (.err x, d') => (.err x, d')
            | (.panic p, d') => (.panic p, d')
            | (.diverge, d') => (.diverge, d')
          | .err x => (.err x, d)
          | .panic p => (.panic p, d)
          | .diverge => (.diverge, d)
        | .err x => (.err x, d)
        | .panic p => (.panic p, d)
        | .diverge => (.diverge, d)
      | .err x => (.err x, d)
      | .panic p => (.panic p, d)
      | .diverge => (.diverge, d)
    | (.err x, _) => (.err x, d)
    | (.panic p, _) => (.panic p, d)
    | (.diverge, _) => (.diverge, d)

/-- `src/index.rs:259-320`, `NtfsIndexFinder::find`. -/
def findRel {κ : Type} (keyFromSlice : Bytes → Pos → Res κ) (cmp : κ → Res Ordering) (ix : Index)
    (fuel : Nat) : StM Dev (Option IEntry) :=
  findLoopRel keyFromSlice cmp ix fuel ix.rootRanges

/-- `src/indexes/file_name.rs:25-37`, `NtfsFileNameIndex::find`. -/
def findNameRel (ix : Index) (ntfs : Ntfs) (name : List Nat) (fuel : Nat) : StM Dev (Option IEntry) :=
  ix.findRel FileName.keyFromSlice (fun f => upcaseCmp ntfs name (u16s f.name)) fuel

end Index

/-- `src/file.rs:285-294`: the index allocation of a directory. -/
def NFile.indexAllocationItemRel (f : NFile) (root : IndexRoot) (fuel : Nat) :
    StM Dev (Option AttrItem) := do
  if ← StM.lift root.isLarge then do
    let i ← f.findAttributeRel .indexAllocation (some i30) fuel
    pure (some i)
  else pure none

/-- `src/file.rs:263-297`, `directory_index`. -/
def NFile.directoryIndexRel (f : NFile) (fuel : Nat) : StM Dev Index := do
  if !(← StM.lift f.isDirectory) then StM.fail (.notADirectory f.position)
  else do
    let rootItem ← f.findAttributeRel .indexRoot (some i30) fuel
    let a ← StM.lift rootItem.toAttribute
    let root ← StM.lift a.residentIndexRoot
    let allocationItem ← f.indexAllocationItemRel root fuel
    StM.lift (Index.new rootItem allocationItem)

end NT
