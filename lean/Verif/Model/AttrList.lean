import Verif.Model.Attribute
import Verif.Model.ReadExact

/-! Attribute lists: `src/structured_values/attribute_list.rs`, values split over several attributes
(`src/attribute_value/attribute_list_non_resident.rs`), the whole enum `NtfsAttributeValue`
(`src/attribute_value/mod.rs`) and the flattened attribute iterator (`src/attribute.rs:540-720`).

An iterator method `next(..) -> Option<Result<X>>` is modelled as a result `Res (Option X)`:
`Some(Ok(x))` is `.ok (some x)`, `None` is `.ok none`, `Some(Err(e))` is `.err e`. -/

namespace NT

/-- Runs a device operation inside a larger state. -/
def StM.onDev {σ α : Type} (x : StM Dev α) : StM (σ × Dev) α := fun (s, d) =>
  let (r, d') := x d
  (r, (s, d'))

/-- `src/error.rs:247-257`: an `NtfsError` passed through `std::io::Error` and back. -/
def Err.viaIo : Err → Err
  | .io e => .io e
  | _ => .io (.other 0)

/-- `src/error.rs:247-257` on results. -/
def Res.viaIo {α : Type} : Res α → Res α
  | .err e => .err e.viaIo
  | r => r

/-- `Read::read_exact` (standard library) on a value attached to a device
(`src/attribute_value/non_resident.rs:242-249`, `src/attribute_value/mod.rs:146-153`): the same loop
as `src/traits.rs:21-46`, but errors go through `std::io::Error`. Returned are the bytes read; the
buffer starts as zeros. -/
def NonRes.readExactAttached (n : Nat) : StM (NonRes × Dev) Bytes := fun (v, d) =>
  match v.readExact (List.replicate n 0) d with
  | (.ok (), s, buf) => (.ok buf, s)
  | (.err e, s, _) => (.err e.viaIo, s)
  | (.panic p, s, _) => (.panic p, s)
  | (.diverge, s, _) => (.diverge, s)

/-- `Read::read_exact` on a `Cursor` over a slice: the state is the list of bytes not yet read. -/
def cursorReadExact (n : Nat) : StM Bytes Bytes := fun c =>
  if n ≤ c.length then (.ok (c.take n), c.drop n) else (.err (.io .unexpectedEof), c)

/-- `src/structured_values/attribute_list.rs:177-181`, `struct NtfsAttributeListEntry` with the header
fields of lines 30-47 (`name_offset` is never used and left out). -/
structure ListEntry where
  tyCode : Nat
  length : Nat
  nameUnits : Nat
  lowestVcn : Int
  ref : FileRef
  inst : Nat
  name : Bytes
  position : Pos
  deriving DecidableEq, Repr

namespace ListEntry

/-- `src/structured_values/attribute_list.rs:30-47`: the header decoded from its 26 bytes by `binrw`
(trusted): `ty` u32 at 0, `list_entry_length` u16 at 4, `name_length` u8 at 6, `name_offset` u8 at 7,
`lowest_vcn` i64 at 8, `base_file_reference` 8 bytes at 16, `instance` u16 at 24. -/
def ofHeader (h : Bytes) (position : Pos) : Res ListEntry := do
  let tyCode ← readLE 4 h 0
  let length ← readLE 2 h 4
  let nameUnits ← idxByte h 6
  let vcn ← readLE 8 h 8
  let ref ← idxRange h 16 24
  let inst ← readLE 2 h 24
  pure { tyCode, length, nameUnits, lowestVcn := toI64 vcn, ref := { bytes := ref }, inst, name := [], position }

/-- `src/structured_values/attribute_list.rs:239-241`, `name_length`. -/
abbrev nameLength (e : ListEntry) : Nat := e.nameUnits * 2

/-- `src/structured_values/attribute_list.rs:301-314`, `validate_entry_and_name_length`. -/
def validate (e : ListEntry) : Res Unit :=
  if 26 + e.nameLength > e.length then
    .err (.invalidStructuredValueSize e.position .attributeList e.length (26 + e.nameLength))
  else .ok ()

/-- `src/structured_values/attribute_list.rs:184-200` (`new`) and 248-259 (`read_name`), over any
reader given by its `read_exact`. Simplification: `binrw` reads the header in several calls of
`read_exact`, the model in one. The assertion in `read_name` holds by construction. -/
def new {σ : Type} (readExact : Nat → StM σ Bytes) (position : Pos) : StM σ ListEntry := do
  let h ← readExact 26
  let e ← StM.lift (ofHeader h position)
  StM.lift e.validate
  let name ← readExact e.nameLength
  pure { e with name }

/-- `src/structured_values/attribute_list.rs:294-299`, `ty`. -/
def ty (e : ListEntry) : Res AttrType :=
  Res.ofOption (.unsupportedAttributeType e.position e.tyCode) (AttrType.ofCode e.tyCode)

/-- `src/structured_values/attribute_list.rs:284-290`, `to_file`. -/
def toFile (e : ListEntry) (ntfs : Ntfs) : StM Dev NFile := ntfs.file e.ref.fileRecordNumber

/-- `src/structured_values/attribute_list.rs:268-281`, `to_attribute`. -/
def toAttribute (e : ListEntry) (file : NFile) : Res Attr :=
  if file.number = e.ref.fileRecordNumber then do
    let t ← e.ty
    file.findResidentAttribute t none (some e.inst)
  else .panic .assert

end ListEntry

namespace AttrList

/-- `src/structured_values/attribute_list.rs:155-172`, `next_resident`. Line 169: if the entry claims
more bytes than are left, the entry is dropped and the iterator stays where it is. -/
def nextResident (slice : Bytes) (position : Pos) : Res (Option ListEntry) × Bytes × Pos :=
  if slice = [] then (.ok none, slice, position)
  else
    match ListEntry.new cursorReadExact position slice with
    | (.ok e, _) =>
      match getRange slice e.length slice.length with
      | some rest => (.ok (some e), rest, Pos.add position e.length)
      | none => (.ok none, slice, position)
    | (.err e, _) => (.err e, slice, position)
    | (.panic p, _) => (.panic p, slice, position)
    | (.diverge, _) => (.diverge, slice, position)

/-- `src/structured_values/attribute_list.rs:133-153`, `next_non_resident`. The entry is read from a
clone of the value; `seek` does not touch the device. -/
def nextNonResident (v : NonRes) (d : Dev) : Res (Option ListEntry) × NonRes × Dev :=
  if v.streamPosition ≥ v.len then (.ok none, v, d)
  else
    match ListEntry.new NonRes.readExactAttached v.dataPosition (v, d) with
    | (.ok e, (_, d')) =>
      match v.seek (.current e.length) with
      | (.ok _, v') => (.ok (some e), v', d')
      | (.err x, v') => (.err x, v', d')
      | (.panic p, v') => (.panic p, v', d')
      | (.diverge, v') => (.diverge, v', d')
    | (.err e, (_, d')) => (.err e, v, d')
    | (.panic p, (_, d')) => (.panic p, v, d')
    | (.diverge, (_, d')) => (.diverge, v, d')

/-- `src/structured_values/attribute_list.rs:123-131`, `NtfsAttributeListEntries::next`. -/
def next : StM (AttrList × Dev) (Option ListEntry) := fun (l, d) =>
  match l with
  | .resident slice position =>
    let (r, slice', position') := nextResident slice position
    (r, (.resident slice' position', d))
  | .nonResident v =>
    let (r, v', d') := nextNonResident v d
    (r, (.nonResident v', d'))

/-- `src/structured_values/attribute_list.rs:75-80`, `position`. -/
def position : AttrList → Pos
  | .resident _ position => position
  | .nonResident v => v.dataPosition

/-- The number of bytes of the list that the iterator has not passed yet. Every entry has at least
26 bytes, so this bounds the number of further steps (fuel of the loops below). -/
def remaining : AttrList → Nat
  | .resident slice _ => slice.length
  | .nonResident v => v.len - v.streamPosition

end AttrList

/-- `src/attribute_value/attribute_list_non_resident.rs:321-327`, `struct AttributeState`. -/
structure AttrState where
  file : NFile
  offset : Nat
  runs : Option RunsState
  deriving DecidableEq, Repr

/-- `src/attribute_value/attribute_list_non_resident.rs:26-39`,
`struct NtfsAttributeListNonResidentAttributeValue`; `connected`, `inst` and `ty` are the fields of
`AttributeListConnectedEntries` (lines 285-289). -/
structure ALVal where
  ntfs : Ntfs
  initial : AttrList
  connected : Option AttrList
  inst : Nat
  ty : AttrType
  dataSize : Nat
  attrState : Option AttrState
  st : StreamState
  deriving DecidableEq, Repr

namespace ALVal

/-- `src/attribute_value/attribute_list_non_resident.rs:84-86`, `len`. -/
abbrev len (v : ALVal) : Nat := v.dataSize

/-- `src/attribute_value/attribute_list_non_resident.rs:279-281`, `stream_position`. -/
abbrev streamPosition (v : ALVal) : Nat := v.st.streamPosition

/-- `src/attribute_value/attribute_list_non_resident.rs:74-76`, `data_position`. -/
def dataPosition (v : ALVal) : Pos := v.st.dataPosition

/-- `src/attribute_value/attribute_list_non_resident.rs:304-317`,
`AttributeListConnectedEntries::next`. -/
def nextConnected : StM (ALVal × Dev) (Option ListEntry) := fun (v, d) =>
  match v.connected with
  | none => (.ok none, (v, d))
  | some l =>
    match AttrList.next (l, d) with
    | (.ok none, (l', d')) => (.ok none, ({ v with connected := some l' }, d'))
    | (.ok (some e), (l', d')) =>
      if e.inst = v.inst then
        match e.ty with
        | .ok t =>
          if t = v.ty then (.ok (some e), ({ v with connected := some l' }, d'))
          else (.ok none, ({ v with connected := none }, d'))
        | .err x => (.err x, ({ v with connected := some l' }, d'))
        | .panic p => (.panic p, ({ v with connected := some l' }, d'))
        | .diverge => (.diverge, ({ v with connected := some l' }, d'))
      else (.ok none, ({ v with connected := none }, d'))
    | (.err x, (l', d')) => (.err x, ({ v with connected := some l' }, d'))
    | (.panic p, (l', d')) => (.panic p, ({ v with connected := some l' }, d'))
    | (.diverge, (l', d')) => (.diverge, ({ v with connected := some l' }, d'))

/-- `src/attribute_value/attribute_list_non_resident.rs:139-169`: the part of `next_attribute` that
opens the attribute of an entry: its first data run and the state of its iterator, `none` if it has
no data run. -/
def openEntry (ntfs : Ntfs) (e : ListEntry) : StM Dev (Option (DataRun × AttrState)) := do
  let file ← e.toFile ntfs
  let a ← StM.lift (e.toAttribute file)
  if ← StM.lift a.isResident then StM.fail (.unexpectedResidentAttribute a.position)
  else do
    let (data, position) ← StM.lift a.nonResidentValueDataAndPosition
    match (DataRuns.new ntfs.clusterSize data position).next with
    | (none, _) => pure none
    | (some r, runs) => do
      let run ← StM.lift r
      pure (some (run, { file, offset := a.offset, runs := some runs.state }))

/-- `src/attribute_value/attribute_list_non_resident.rs:128-172`, `next_attribute`. -/
def nextAttribute : StM (ALVal × Dev) Bool := do
  match ← nextConnected with
  | none => pure false
  | some e => fun (v, d) =>
    match openEntry v.ntfs e d with
    | (.ok none, d') => (.ok false, (v, d'))
    | (.ok (some (run, a)), d') =>
      (.ok true, ({ v with attrState := some a, st := { v.st with run := some run } }, d'))
    | (.err x, d') => (.err x, (v, d'))
    | (.panic p, d') => (.panic p, (v, d'))
    | (.diverge, d') => (.diverge, (v, d'))

/-- `src/attribute_value/attribute_list_non_resident.rs:89-125`, `next_data_run`. The state of the
iterator is taken out (line 97) and only put back when there was another run (line 122). -/
def nextDataRun (v : ALVal) : Res Bool × ALVal :=
  match v.attrState with
  | none => (.ok false, v)
  | some a =>
    match a.runs with
    | none => (.ok false, v)
    | some s =>
      let v1 : ALVal := { v with attrState := some { a with runs := none } }
      match (do let at_ ← Attr.new a.file a.offset none; at_.nonResidentValueDataAndPosition :
          Res (Bytes × Pos)) with
      | .ok (data, position) =>
        match (DataRuns.fromState v.ntfs.clusterSize data position s).next with
        | (none, _) => (.ok false, v1)
        | (some (.ok run), runs') =>
          (.ok true,
            { v with
              attrState := some { a with runs := some runs'.state }
              st := { v.st with run := some run } })
        | (some (.err e), _) => (.err e, v1)
        | (some (.panic p), _) => (.panic p, v1)
        | (some .diverge, _) => (.diverge, v1)
      | .err e => (.err e, v1)
      | .panic p => (.panic p, v1)
      | .diverge => (.diverge, v1)

/-- `src/attribute_value/attribute_list_non_resident.rs:207-220` and 251-266: the next data run of
the current attribute, or else the first one of the next connected attribute. -/
def advance (v : ALVal) (d : Dev) : Res Bool × ALVal × Dev :=
  match v.nextDataRun with
  | (.ok true, v') => (.ok true, v', d)
  | (.ok false, v') => nextAttribute (v', d)
  | (.err e, v') => (.err e, v', d)
  | (.panic p, v') => (.panic p, v', d)
  | (.diverge, v') => (.diverge, v', d)

/-- `src/attribute_value/attribute_list_non_resident.rs:42-68`, `new`. -/
def new (ntfs : Ntfs) (entries : AttrList) (inst : Nat) (ty : AttrType) (dataSize : Nat) :
    StM Dev ALVal := fun d =>
  let v : ALVal :=
    { ntfs, initial := entries, connected := some entries, inst, ty, dataSize, attrState := none,
      st := StreamState.new dataSize }
  match nextAttribute (v, d) with
  | (.ok _, (v', d')) => (.ok v', d')
  | (.err e, (_, d')) => (.err e, d')
  | (.panic p, (_, d')) => (.panic p, d')
  | (.diverge, (_, d')) => (.diverge, d')

/-- `src/attribute_value/attribute_list_non_resident.rs:180-190`, `rewind`. `attribute_state` is not
reset. -/
def rewind (v : ALVal) (d : Dev) : Res Unit × ALVal × Dev :=
  match nextAttribute
      ({ v with connected := some v.initial, st := StreamState.new v.len }, d) with
  | (.ok _, (v', d')) => (.ok (), v', d')
  | (.err e, (v', d')) => (.err e, v', d')
  | (.panic p, (v', d')) => (.panic p, v', d')
  | (.diverge, (v', d')) => (.diverge, v', d')

/-- `src/attribute_value/attribute_list_non_resident.rs:200-221`: the loop of `read`, with fuel. -/
def readLoop : Nat → ALVal → Bytes → Nat → Dev → Res Nat × ALVal × Bytes × Dev
  | 0, v, buf, _, d => (.diverge, v, buf, d)
  | fuel + 1, v, buf, bytesRead, d =>
    if bytesRead < buf.length then
      match v.st.readDataRun buf bytesRead d with
      | (.ok true, st', buf', bytesRead', d') =>
        readLoop fuel { v with st := st' } buf' bytesRead' d'
      | (.ok false, st', buf', bytesRead', d') =>
        match advance { v with st := st' } d' with
        | (.ok true, v', d'') => readLoop fuel v' buf' bytesRead' d''
        | (.ok false, v', d'') => (.ok bytesRead', v', buf', d'')
        | (.err e, v', d'') => (.err e, v', buf', d'')
        | (.panic p, v', d'') => (.panic p, v', buf', d'')
        | (.diverge, v', d'') => (.diverge, v', buf', d'')
      | (.err e, st', buf', _, d') => (.err e, { v with st := st' }, buf', d')
      | (.panic p, st', buf', _, d') => (.panic p, { v with st := st' }, buf', d')
      | (.diverge, st', buf', _, d') => (.diverge, { v with st := st' }, buf', d')
    else (.ok bytesRead, v, buf, d)

/-- Bound on the number of data runs that can still come: every list entry has at least 26 bytes and
names an attribute inside one file record, whose data run information is shorter than the record. -/
def runFuel (v : ALVal) : Nat :=
  (v.initial.remaining + 2) * (v.ntfs.fileRecordSize + 2)

/-- The same bound from the current state: the runs of the current attribute, and those of the entries that
are left. It makes the fuel of `read` suffice in every state, also in one that no operation leads to
(`SettledOn.runLoop` in `Verif/Lemmas/Split.lean`). -/
def leftFuel (v : ALVal) : Nat :=
  (match v.attrState with
    | some a => a.file.recordData.length
    | none => 0) +
  (match v.connected with
    | some l => l.remaining * (v.ntfs.fileRecordSize + 1)
    | none => 0) + 1

/-- `src/attribute_value/attribute_list_non_resident.rs:194-224`, `read`. -/
def read (v : ALVal) (buf : Bytes) (d : Dev) : Res Nat × ALVal × Bytes × Dev :=
  readLoop (buf.length + v.runFuel + v.leftFuel) v buf 0 d

/-- `src/attribute_value/attribute_list_non_resident.rs:241-266`: the loop of `seek`, with fuel. -/
def seekLoop : Nat → ALVal → SeekFrom → Nat → Dev → Res Unit × ALVal × Dev
  | 0, v, _, _, d => (.diverge, v, d)
  | fuel + 1, v, pos, left, d =>
    if left > 0 then
      match v.st.seekDataRun pos left with
      | (.ok true, st', _) => (.ok (), { v with st := st' }, d)
      | (.ok false, st', left') =>
        match advance { v with st := st' } d with
        | (.ok true, v', d') => seekLoop fuel v' pos left' d'
        | (.ok false, v', d') => (.ok (), { v' with st := { v'.st with run := none } }, d')
        | (.err e, v', d') => (.err e, v', d')
        | (.panic p, v', d') => (.panic p, v', d')
        | (.diverge, v', d') => (.diverge, v', d')
      | (.err e, st', _) => (.err e, { v with st := st' }, d)
      | (.panic p, st', _) => (.panic p, { v with st := st' }, d)
      | (.diverge, st', _) => (.diverge, { v with st := st' }, d)
    else (.ok (), v, d)

/-- `src/attribute_value/attribute_list_non_resident.rs:226-277`, `seek`. -/
def seek (v : ALVal) (pos : SeekFrom) (d : Dev) : Res Nat × ALVal × Dev :=
  match v.st.optimizeSeek pos v.len with
  | .err e => (.err e, v, d)
  | .panic p => (.panic p, v, d)
  | .diverge => (.diverge, v, d)
  | .ok (.start n) =>
    match v.rewind d with
    | (.ok (), v1, d1) =>
      match seekLoop v.runFuel v1 (.start n) n d1 with
      | (.ok (), v2, d2) => (.ok n, { v2 with st := { v2.st with streamPosition := n } }, d2)
      | (.err e, v2, d2) => (.err e, v2, d2)
      | (.panic p, v2, d2) => (.panic p, v2, d2)
      | (.diverge, v2, d2) => (.diverge, v2, d2)
    | (.err e, v1, d1) => (.err e, v1, d1)
    | (.panic p, v1, d1) => (.panic p, v1, d1)
    | (.diverge, v1, d1) => (.diverge, v1, d1)
  | .ok (.current n) =>
    if 0 ≤ n then
      match seekLoop v.runFuel v (.current n) n.toNat d with
      | (.ok (), v2, d2) =>
        if v2.st.streamPosition + n.toNat < U64 then
          (.ok (v2.st.streamPosition + n.toNat),
            { v2 with st := { v2.st with streamPosition := v2.st.streamPosition + n.toNat } }, d2)
        else (.panic .overflow, v2, d2)
      | (.err e, v2, d2) => (.err e, v2, d2)
      | (.panic p, v2, d2) => (.panic p, v2, d2)
      | (.diverge, v2, d2) => (.diverge, v2, d2)
    else (.panic .assert, v, d)
  | .ok (.end_ _) => (.panic .assert, v, d)

end ALVal

/-- `src/attribute_value/mod.rs:26-33`, enum `NtfsAttributeValue`: the first two variants are
`SVal`. -/
inductive Val
  | simple (v : SVal)
  | list (v : ALVal)
  deriving DecidableEq, Repr

/-- `src/attribute_value/mod.rs:74-83`, `read` for the first two variants. -/
def SVal.read (v : SVal) (buf : Bytes) (d : Dev) : Res Nat × SVal × Bytes × Dev :=
  match v with
  | .res v => let (r, v', buf') := v.read buf; (r, .res v', buf', d)
  | .nonRes v => let (r, v', buf', d') := v.read buf d; (r, .nonRes v', buf', d')

/-- `src/attribute_value/mod.rs:96-102`, `stream_position` for the first two variants. -/
def SVal.streamPosition : SVal → Nat
  | .res v => v.streamPosition
  | .nonRes v => v.streamPosition

namespace Val

/-- `src/attribute_value/mod.rs:50-56`, `data_position`. -/
def dataPosition : Val → Pos
  | simple v => v.dataPosition
  | list v => v.dataPosition

/-- `src/attribute_value/mod.rs:64-70`, `len`. -/
def len : Val → Nat
  | simple v => v.len
  | list v => v.len

/-- `src/attribute_value/mod.rs:74-83`, `read`. -/
def read (v : Val) (buf : Bytes) (d : Dev) : Res Nat × Val × Bytes × Dev :=
  match v with
  | simple v => let (r, v', buf', d') := v.read buf d; (r, simple v', buf', d')
  | list v => let (r, v', buf', d') := v.read buf d; (r, list v', buf', d')

/-- `src/attribute_value/mod.rs:85-94`, `seek`. -/
def seek (v : Val) (pos : SeekFrom) (d : Dev) : Res Nat × Val × Dev :=
  match v with
  | simple v => let (r, v') := v.seek pos; (r, simple v', d)
  | list v => let (r, v', d') := v.seek pos d; (r, list v', d')

/-- `src/attribute_value/mod.rs:96-102`, `stream_position`. -/
def streamPosition : Val → Nat
  | simple v => v.streamPosition
  | list v => v.streamPosition

/-- `Val.read` in the form `ReadFn`. -/
def readFn : ReadFn (Val × Dev) := fun (v, d) buf =>
  let (r, v', buf', d') := v.read buf d
  (r, (v', d'), buf')

/-- `src/traits.rs:21-46`, `read_exact`, for any value. Every iteration delivers a byte or uses up one
entry of the device's schedule, so the fuel suffices. -/
def readExact (v : Val) (buf : Bytes) (d : Dev) : Res Unit × (Val × Dev) × Bytes :=
  readExactLoop readFn (buf.length + d.sched.length + 1) (v, d) [] buf

/-- Standard `Read::read_exact` of `n` bytes on an attached value (`src/attribute_value/mod.rs:146-153`);
errors go through `std::io::Error`. -/
def readExactAttached (n : Nat) : StM (Val × Dev) Bytes := fun (v, d) =>
  match v.readExact (List.replicate n 0) d with
  | (.ok (), s, buf) => (.ok buf, s)
  | (.err e, s, _) => (.err e.viaIo, s)
  | (.panic p, s, _) => (.panic p, s)
  | (.diverge, s, _) => (.diverge, s)

end Val

/-- `src/attribute.rs:498-524`, `value`. -/
def Attr.value (a : Attr) : StM Dev Val :=
  match a.list with
  | some l => do
    let size ← StM.lift a.nonResidentValueDataSize
    let i ← StM.lift a.inst
    let t ← StM.lift a.ty
    let v ← ALVal.new a.file.ntfs l i t size
    pure (.list v)
  | none => do
    let v ← StM.lift a.simpleValue
    pure (.simple v)

/-- `src/structured_values/attribute_list.rs:86-104`, `NtfsAttributeList::from_attribute_value`. -/
def AttrList.ofValue : Val → Res AttrList
  | .simple (.res v) => .ok (.resident v.data v.dataPosition)
  | .simple (.nonRes v) => .ok (.nonResident v)
  | .list v => .err (.unexpectedAttributeListAttribute v.dataPosition)

/-- `src/attribute.rs:383-391`, `structured_value::<NtfsAttributeList>`. -/
def Attr.attributeList (a : Attr) : StM Dev AttrList := do
  StM.lift (a.ensureTy .attributeList)
  let v ← a.value
  StM.lift (AttrList.ofValue v)

/-- `src/attribute.rs:701-706`, `struct NtfsAttributeItem`. -/
structure AttrItem where
  file : NFile
  valueFile : Option NFile
  offset : Nat
  list : Option AttrList
  deriving DecidableEq, Repr

/-- `src/attribute.rs:710-720`, `NtfsAttributeItem::to_attribute`. -/
def AttrItem.toAttribute (i : AttrItem) : Res Attr :=
  match i.valueFile with
  | some f => Attr.new f i.offset i.list
  | none => Attr.new i.file i.offset i.list

/-- `src/attribute.rs:547-551`, `struct NtfsAttributes`. -/
structure Attrs where
  raw : AttrsRaw
  list : Option AttrList
  skip : Option (Nat × AttrType)
  deriving DecidableEq, Repr

/-- `src/attribute.rs:554-560`, `NtfsAttributes::new`; `src/file.rs:176-178`, `attributes`. -/
def NFile.attributes (f : NFile) : Res Attrs := do
  let raw ← f.attributesRaw
  pure { raw, list := none, skip := none }

namespace Attrs

/-- `src/attribute.rs:611-628`: the item for a list entry that is returned. `l` is the clone of the
list iterator before the entry. -/
def itemOf (it : Attrs) (l : AttrList) (e : ListEntry) (t : AttrType) :
    StM Dev (AttrItem × Option (Nat × AttrType)) := do
  let file ← e.toFile it.raw.file.ntfs
  let a ← StM.lift (e.toAttribute file)
  if ← StM.lift a.isResident then
    pure ({ file := it.raw.file, valueFile := some file, offset := a.offset, list := none }, none)
  else
    pure ({ file := it.raw.file, valueFile := some file, offset := a.offset, list := some l },
      some (e.inst, t))

/-- `src/attribute.rs:578-629`: the loop over the entries of an attribute list, with fuel. `none` is
the `break` at line 590. -/
def nextInList : Nat → AttrList → StM (Attrs × Dev) (Option AttrItem)
  | 0, _ => fun s => (.diverge, s)
  | fuel + 1, l => fun (it, d) =>
    match AttrList.next (l, d) with
    | (.ok none, (l', d')) => (.ok none, ({ it with list := some l' }, d'))
    | (.ok (some e), (l', d')) =>
      let it1 : Attrs := { it with list := some l' }
      match e.ty with
      | .ok t =>
        if e.ref.fileRecordNumber = it.raw.file.number then nextInList fuel l' (it1, d')
        else if it.skip = some (e.inst, t) then nextInList fuel l' (it1, d')
        else
          match it.itemOf l e t d' with
          | (.ok (item, skip), d'') => (.ok (some item), ({ it1 with skip := skip }, d''))
          | (.err x, d'') => (.err x, ({ it1 with skip := none }, d''))
          | (.panic p, d'') => (.panic p, ({ it1 with skip := none }, d''))
          | (.diverge, d'') => (.diverge, ({ it1 with skip := none }, d''))
      | .err x => (.err x, (it1, d'))
      | .panic p => (.panic p, (it1, d'))
      | .diverge => (.diverge, (it1, d'))
    | (.err x, (l', d')) => (.err x, ({ it with list := some l' }, d'))
    | (.panic p, (l', d')) => (.panic p, ({ it with list := some l' }, d'))
    | (.diverge, (l', d')) => (.diverge, ({ it with list := some l' }, d'))

/-- `src/attribute.rs:577-630`: the part of the loop that handles the current attribute list. -/
def nextFromList : StM (Attrs × Dev) (Option AttrItem) := fun (it, d) =>
  match it.list with
  | none => (.ok none, (it, d))
  | some l => nextInList (l.remaining + 1) l (it, d)

/-- `src/attribute.rs:576-646`: the loop of `next`, with fuel. -/
def nextLoop : Nat → StM (Attrs × Dev) (Option AttrItem)
  | 0 => fun s => (.diverge, s)
  | fuel + 1 => do
    match ← nextFromList with
    | some item => pure (some item)
    | none => fun (it, d) =>
      match it.raw.next with
      | (none, raw') => (.ok none, ({ it with raw := raw' }, d))
      | (some (.ok a), raw') =>
        let it1 : Attrs := { it with raw := raw' }
        match a.ty with
        | .ok .attributeList =>
          match a.attributeList d with
          | (.ok l, d') => nextLoop fuel ({ it1 with list := some l }, d')
          | (.err x, d') => (.err x, (it1, d'))
          | (.panic p, d') => (.panic p, (it1, d'))
          | (.diverge, d') => (.diverge, (it1, d'))
        | .panic p => (.panic p, (it1, d))
        | .diverge => (.diverge, (it1, d))
        | _ =>
          (.ok (some { file := it.raw.file, valueFile := none, offset := a.offset, list := none }),
            (it1, d))
      | (some (.err x), raw') => (.err x, ({ it with raw := raw' }, d))
      | (some (.panic p), raw') => (.panic p, ({ it with raw := raw' }, d))
      | (some .diverge, raw') => (.diverge, ({ it with raw := raw' }, d))

/-- `src/attribute.rs:572-647`, `NtfsAttributes::next`. Every round of the loop passes a raw
attribute, so the record length is enough fuel. -/
def next : StM (Attrs × Dev) (Option AttrItem) := fun (it, d) =>
  nextLoop (it.raw.file.recordData.length + 1) (it, d)

end Attrs

end NT
