import Verif.Model.Index

/-! The functions with additions that are checked in a debug build only, as a release build runs them. `Cargo.toml` has no
profiles, so in a release build an addition wraps around and `debug_assert!` does nothing. The rest of the model is that
of a debug build. -/

namespace NT

/-- `src/record.rs:122-125`, `update_sequence_array_start`: the `u16` addition wraps. -/
def Record.usArrayStartRel (r : Record) : Res Nat := do
  let off ← r.usOffset
  .ok ((off + 2) % U16)

/-- `src/record.rs:38-87`, `fixup`. The number of elements is that of `Record.fixup`: also here the difference is even, and
at least 0 because the count is not 0. -/
def Record.fixupRel (r : Record) : Res Record := do
  let usn ← r.usNumber
  let arrayCount ← r.usArrayCount
  let arrayPosition ← r.usArrayStartRel
  let off ← r.usOffset
  let size ← r.usSize
  let arrayEnd := off + size
  let sectorsEnd := arrayCount * NTFS_BLOCK_SIZE
  if arrayEnd > r.data.length ∨ sectorsEnd > r.data.length then
    .err (.updateSequenceArrayExceedsRecordSize r.position arrayCount r.data.length)
  else do
    let data ← Record.fixupLoop r.position usn ((arrayEnd - arrayPosition) / 2) r.data
      arrayPosition (NTFS_BLOCK_SIZE - 2)
    pure { r with data }

/-- `src/index_record.rs:151-177`, `validate_sizes`: the `u32` additions wrap. -/
def IndexRecord.validateSizesRel (r : IndexRecord) : Res Unit := do
  let size := r.record.data.length
  let a ← r.allocatedSize
  let total := (24 + a) % U32
  if total > size then .err (.invalidIndexAllocatedSize r.record.position size total)
  else do
    let u ← r.dataSize
    let used := (24 + u) % U32
    if used > total then .err (.invalidIndexUsedSize r.record.position total used)
    else .ok ()

/-- `src/index_record.rs:72-79`: the part of `new` after the bytes have been read. -/
def IndexRecord.ofBytesRel (data : Bytes) (position : Pos) : Res IndexRecord := do
  let record : Record := { data, position }
  IndexRecord.validateSignature record
  let record ← record.fixupRel
  let r : IndexRecord := { record }
  r.validateSizesRel
  pure r

/-- `src/index_record.rs:128-134`, `into_entry_ranges`, with `src/index_entry.rs:315-325` without the `debug_assert!`. The
additions are those of a 64-bit `usize` and cannot wrap. -/
def IndexRecord.intoEntryRangesRel (r : IndexRecord) : Res NodeRanges := do
  let (start, stop, position) ← r.entriesRange
  pure { data := r.record.data, start, stop, position }

/-- `src/attribute_value/non_resident.rs:488-511`, `NtfsDataRun::read`: the addition of line 501 wraps. -/
def DataRun.readRel (r : DataRun) (buf : Bytes) (d : Dev) : Res Nat × DataRun × Bytes × Dev :=
  if r.remainingLen = 0 then (.ok 0, r, buf, d)
  else
    let bytesToRead := min buf.length r.remainingLen
    match r.position with
    | some position =>
      match Dev.seekStart ((position + r.streamPosition) % U64) d with
      | (.ok (), d1) =>
        match Dev.read bytesToRead d1 with
        | (.ok b, d2) =>
          (.ok b.length, { r with streamPosition := r.streamPosition + b.length },
            overwrite buf 0 b, d2)
        | (.err e, d2) => (.err e, r, buf, d2)
        | (.panic p, d2) => (.panic p, r, buf, d2)
        | (.diverge, d2) => (.diverge, r, buf, d2)
      | (.err e, d1) => (.err e, r, buf, d1)
      | (.panic p, d1) => (.panic p, r, buf, d1)
      | (.diverge, d1) => (.diverge, r, buf, d1)
    | none =>
      (.ok bytesToRead, { r with streamPosition := r.streamPosition + bytesToRead },
        overwrite buf 0 (List.replicate bytesToRead 0), d)

/-- `src/attribute_value/non_resident.rs:623-664`, `read_data_run`. -/
def StreamState.readDataRunRel (s : StreamState) (buf : Bytes) (bytesRead : Nat) (d : Dev) :
    Res Bool × StreamState × Bytes × Nat × Dev :=
  match s.run with
  | none => (.ok false, s, buf, bytesRead, d)
  | some r =>
    if r.streamPosition ≥ r.allocatedSize then (.ok false, s, buf, bytesRead, d)
    else
      let remainingDataSize := s.dataSize - s.streamPosition
      if remainingDataSize = 0 then (.ok false, s, buf, bytesRead, d)
      else
        let stop := bytesRead + min (buf.length - bytesRead) remainingDataSize
        let slice := (buf.drop bytesRead).take (stop - bytesRead)
        match r.readRel slice d with
        | (.ok n, r', slice', d') =>
          if n = 0 then
            (.ok false, { s with run := some r' }, overwrite buf bytesRead slice', bytesRead, d')
          else
            (.ok true, { s with run := some r', streamPosition := s.streamPosition + n },
              overwrite buf bytesRead slice', bytesRead + n, d')
        | (.err e, r', slice', d') =>
          (.err e, { s with run := some r' }, overwrite buf bytesRead slice', bytesRead, d')
        | (.panic p, r', slice', d') =>
          (.panic p, { s with run := some r' }, overwrite buf bytesRead slice', bytesRead, d')
        | (.diverge, r', slice', d') =>
          (.diverge, { s with run := some r' }, overwrite buf bytesRead slice', bytesRead, d')

/-- `src/attribute_value/non_resident.rs:129-144`: the loop of `read`, with fuel. -/
def NonRes.readLoopRel : Nat → NonRes → Bytes → Nat → Dev → Res Nat × NonRes × Bytes × Dev
  | 0, v, buf, _, d => (.diverge, v, buf, d)
  | fuel + 1, v, buf, bytesRead, d =>
    if bytesRead < buf.length then
      match v.st.readDataRunRel buf bytesRead d with
      | (.ok true, st', buf', bytesRead', d') =>
        NonRes.readLoopRel fuel { v with st := st' } buf' bytesRead' d'
      | (.ok false, st', buf', bytesRead', d') =>
        match ({ v with st := st' } : NonRes).nextDataRun with
        | (.ok true, v') => NonRes.readLoopRel fuel v' buf' bytesRead' d'
        | (.ok false, v') => (.ok bytesRead', v', buf', d')
        | (.err e, v') => (.err e, v', buf', d')
        | (.panic p, v') => (.panic p, v', buf', d')
        | (.diverge, v') => (.diverge, v', buf', d')
      | (.err e, st', buf', _, d') => (.err e, { v with st := st' }, buf', d')
      | (.panic p, st', buf', _, d') => (.panic p, { v with st := st' }, buf', d')
      | (.diverge, st', buf', _, d') => (.diverge, { v with st := st' }, buf', d')
    else (.ok bytesRead, v, buf, d)

/-- `src/attribute_value/non_resident.rs:123-147`, `read`. -/
def NonRes.readRel (v : NonRes) (buf : Bytes) (d : Dev) : Res Nat × NonRes × Bytes × Dev :=
  NonRes.readLoopRel (buf.length + v.data.length + v.runs.data.length + 2) v buf 0 d

end NT
