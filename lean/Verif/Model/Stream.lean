import Verif.Model.DataRuns

namespace NT

/-- `src/attribute_value/non_resident.rs:527-534`, `struct StreamState`. -/
structure StreamState where
  run : Option DataRun
  streamPosition : Nat
  dataSize : Nat
  deriving DecidableEq, Repr

/-- `src/attribute_value/non_resident.rs:537-543`, `StreamState::new`. -/
def StreamState.new (dataSize : Nat) : StreamState :=
  { run := none, streamPosition := 0, dataSize }

/-- `src/attribute_value/non_resident.rs:550-556`, `StreamState::data_position`. -/
def StreamState.dataPosition (s : StreamState) : Pos :=
  match s.run with
  | some r => r.dataPosition
  | none => none

/-- `src/attribute_value/non_resident.rs:582-620`, `simplify_seek`. -/
def StreamState.simplifySeek (s : StreamState) (pos : SeekFrom) (dataSize : Nat) : Res SeekFrom :=
  match pos with
  | .start n => .ok (.start n)
  | .end_ n =>
    if 0 ≤ n then
      match checkedAddU64 dataSize n.toNat with
      | some m => .ok (.start m)
      | none => .err (.io .invalidInput)
    else
      match checkedSub dataSize (negAsU64 n) with
      | some m => .ok (.start m)
      | none => .err (.io .invalidInput)
  | .current n =>
    if 0 ≤ n then
      match checkedAddU64 s.streamPosition n.toNat with
      | some _ => .ok (.current n)
      | none => .err (.io .invalidInput)
    else
      match checkedSub s.streamPosition (negAsU64 n) with
      | some m => .ok (.start m)
      | none => .err (.io .invalidInput)

/-- `src/attribute_value/non_resident.rs:563-577`, `optimize_seek`. -/
def StreamState.optimizeSeek (s : StreamState) (pos : SeekFrom) (dataSize : Nat) : Res SeekFrom :=
  match s.simplifySeek pos dataSize with
  | .ok (.start n) =>
    match checkedSub n s.streamPosition with
    | some m => if m < I63 then .ok (.current (m : Int)) else .ok (.start n)
    | none => .ok (.start n)
  | r => r

/-- `src/attribute_value/non_resident.rs:623-664`, `read_data_run`: result, new state, buffer,
`bytes_read`, device. Line 652 (`buf.len() - start`) cannot underflow because both callers loop
while `bytes_read < buf.len()`. -/
def StreamState.readDataRun (s : StreamState) (buf : Bytes) (bytesRead : Nat) (d : Dev) :
    Res Bool × StreamState × Bytes × Nat × Dev :=
  match s.run with
  | none => (.ok false, s, buf, bytesRead, d)
  | some r =>
    if r.streamPosition ≥ r.allocatedSize then (.ok false, s, buf, bytesRead, d)
    else
      let remainingDataSize := s.dataSize - s.streamPosition
      if remainingDataSize = 0 then (.ok false, s, buf, bytesRead, d)
      else
        let stop := bytesRead + min (buf.length - bytesRead) remainingDataSize
        let slice := (buf.drop bytesRead).take (stop - bytesRead)
        match r.read slice d with
        | (.ok n, r', slice', d') =>
          if n = 0 then
            (.ok false, { s with run := some r' }, overwrite buf bytesRead slice', bytesRead, d')
          else
            (.ok true, { s with run := some r', streamPosition := s.streamPosition + n },
              overwrite buf bytesRead slice', bytesRead + n, d')
        | (.err e, r', slice', d') =>
          (.err e, { s with run := some r' }, overwrite buf bytesRead slice', bytesRead, d')
        | (.panic p, r', slice', d') =>
          (.panic p, { s with run := some r' }, overwrite buf bytesRead slice', bytesRead, d')
        | (.diverge, r', slice', d') =>
          (.diverge, { s with run := some r' }, overwrite buf bytesRead slice', bytesRead, d')

/-- `src/attribute_value/non_resident.rs:669-708`, `seek_data_run`: result, new state, new
`bytes_left_to_seek`. The device argument of the Rust function is not used by `NtfsDataRun::seek`.
`bytesToSeek` is never `End` (`optimize_seek`); that arm is the `unreachable!()`. -/
def StreamState.seekDataRun (s : StreamState) (bytesToSeek : SeekFrom) (left : Nat) :
    Res Bool × StreamState × Nat :=
  match s.run with
  | none => (.ok false, s, left)
  | some r =>
    if left < r.remainingLen then
      match bytesToSeek with
      | .start _ =>
        match r.seek (.start left) with
        | (.ok _, r') => (.ok true, { s with run := some r' }, left)
        | (.err e, r') => (.err e, { s with run := some r' }, left)
        | (.panic p, r') => (.panic p, { s with run := some r' }, left)
        | (.diverge, r') => (.diverge, { s with run := some r' }, left)
      | .current _ =>
        match r.seek (.current (toI64 left)) with
        | (.ok _, r') => (.ok true, { s with run := some r' }, left)
        | (.err e, r') => (.err e, { s with run := some r' }, left)
        | (.panic p, r') => (.panic p, { s with run := some r' }, left)
        | (.diverge, r') => (.diverge, { s with run := some r' }, left)
      | .end_ _ => (.panic .assert, s, left)
    else (.ok false, s, left - r.remainingLen)

/-- `src/attribute_value/non_resident.rs:24-35`, `struct NtfsNonResidentAttributeValue` (the `Ntfs`
reference is replaced by its cluster size). -/
structure NonRes where
  clusterSize : Nat
  data : Bytes
  position : Pos
  runs : DataRuns
  st : StreamState
  deriving DecidableEq, Repr

/-- `src/attribute_value/non_resident.rs:96-105`, `next_data_run`. -/
def NonRes.nextDataRun (v : NonRes) : Res Bool × NonRes :=
  match v.runs.next with
  | (none, runs') => (.ok false, { v with runs := runs' })
  | (some (.ok r), runs') =>
    (.ok true, { v with runs := runs', st := { v.st with run := some r } })
  | (some (.err e), runs') => (.err e, { v with runs := runs' })
  | (some (.panic p), runs') => (.panic p, { v with runs := runs' })
  | (some .diverge, runs') => (.diverge, { v with runs := runs' })

/-- `src/attribute_value/non_resident.rs:38-57`, `NtfsNonResidentAttributeValue::new`. -/
def NonRes.new (clusterSize : Nat) (data : Bytes) (position : Pos) (dataSize : Nat) : Res NonRes :=
  let v : NonRes :=
    { clusterSize, data, position, runs := DataRuns.new clusterSize data position,
      st := StreamState.new dataSize }
  match v.nextDataRun with
  | (.ok _, v') => .ok v'
  | (.err e, _) => .err e
  | (.panic p, _) => .panic p
  | (.diverge, _) => .diverge

/-- `src/attribute_value/non_resident.rs:76-78`, `data_position`. -/
def NonRes.dataPosition (v : NonRes) : Pos := v.st.dataPosition

/-- `src/attribute_value/non_resident.rs:81-83`, `data_runs`. -/
def NonRes.dataRuns (v : NonRes) : DataRuns := DataRuns.new v.clusterSize v.data v.position

/-- `src/attribute_value/non_resident.rs:91-93`, `len`. -/
abbrev NonRes.len (v : NonRes) : Nat := v.st.dataSize

/-- `src/attribute_value/non_resident.rs:196-198`, `stream_position`. -/
abbrev NonRes.streamPosition (v : NonRes) : Nat := v.st.streamPosition

/-- `src/attribute_value/non_resident.rs:113-119`, `rewind`. -/
def NonRes.rewind (v : NonRes) : Res Unit × NonRes :=
  match ({ v with runs := v.dataRuns, st := StreamState.new v.len } : NonRes).nextDataRun with
  | (.ok _, v') => (.ok (), v')
  | (.err e, v') => (.err e, v')
  | (.panic p, v') => (.panic p, v')
  | (.diverge, v') => (.diverge, v')

/-- `src/attribute_value/non_resident.rs:129-144`: the loop of `read`, with fuel. -/
def NonRes.readLoop : Nat → NonRes → Bytes → Nat → Dev → Res Nat × NonRes × Bytes × Dev
  | 0, v, buf, _, d => (.diverge, v, buf, d)
  | fuel + 1, v, buf, bytesRead, d =>
    if bytesRead < buf.length then
      match v.st.readDataRun buf bytesRead d with
      | (.ok true, st', buf', bytesRead', d') =>
        NonRes.readLoop fuel { v with st := st' } buf' bytesRead' d'
      | (.ok false, st', buf', bytesRead', d') =>
        match ({ v with st := st' } : NonRes).nextDataRun with
        | (.ok true, v') => NonRes.readLoop fuel v' buf' bytesRead' d'
        | (.ok false, v') => (.ok bytesRead', v', buf', d')
        | (.err e, v') => (.err e, v', buf', d')
        | (.panic p, v') => (.panic p, v', buf', d')
        | (.diverge, v') => (.diverge, v', buf', d')
      | (.err e, st', buf', _, d') => (.err e, { v with st := st' }, buf', d')
      | (.panic p, st', buf', _, d') => (.panic p, { v with st := st' }, buf', d')
      | (.diverge, st', buf', _, d') => (.diverge, { v with st := st' }, buf', d')
    else (.ok bytesRead, v, buf, d)

/-- `src/attribute_value/non_resident.rs:123-147`, `read`: the number of bytes read, the new reader,
the new contents of the whole buffer, the device. Every iteration reads at least one byte or consumes
at least one byte of data run information, so the fuel suffices (`C06_terminates`, `C49_no_panic_partial`). -/
def NonRes.read (v : NonRes) (buf : Bytes) (d : Dev) : Res Nat × NonRes × Bytes × Dev :=
  NonRes.readLoop (buf.length + v.data.length + v.runs.data.length + 2) v buf 0 d

/-- `src/attribute_value/non_resident.rs:164-183`: the loop of `seek`, with fuel. -/
def NonRes.seekLoop : Nat → NonRes → SeekFrom → Nat → Res Unit × NonRes
  | 0, v, _, _ => (.diverge, v)
  | fuel + 1, v, pos, left =>
    if left > 0 then
      match v.st.seekDataRun pos left with
      | (.ok true, st', _) => (.ok (), { v with st := st' })
      | (.ok false, st', left') =>
        match ({ v with st := st' } : NonRes).nextDataRun with
        | (.ok true, v') => NonRes.seekLoop fuel v' pos left'
        | (.ok false, v') => (.ok (), { v' with st := { v'.st with run := none } })
        | (.err e, v') => (.err e, v')
        | (.panic p, v') => (.panic p, v')
        | (.diverge, v') => (.diverge, v')
      | (.err e, st', _) => (.err e, { v with st := st' })
      | (.panic p, st', _) => (.panic p, { v with st := st' })
      | (.diverge, st', _) => (.diverge, { v with st := st' })
    else (.ok (), v)

/-- `src/attribute_value/non_resident.rs:149-194`, `seek`. It does not touch the device. Line 189 is
`u64` addition (panics on overflow; `simplify_seek` has ruled this out). -/
def NonRes.seek (v : NonRes) (pos : SeekFrom) : Res Nat × NonRes :=
  match v.st.optimizeSeek pos v.len with
  | .err e => (.err e, v)
  | .panic p => (.panic p, v)
  | .diverge => (.diverge, v)
  | .ok (.start n) =>
    match v.rewind with
    | (.ok (), v1) =>
      match NonRes.seekLoop (v.data.length + 2) v1 (.start n) n with
      | (.ok (), v2) => (.ok n, { v2 with st := { v2.st with streamPosition := n } })
      | (.err e, v2) => (.err e, v2)
      | (.panic p, v2) => (.panic p, v2)
      | (.diverge, v2) => (.diverge, v2)
    | (.err e, v1) => (.err e, v1)
    | (.panic p, v1) => (.panic p, v1)
    | (.diverge, v1) => (.diverge, v1)
  | .ok (.current n) =>
    if 0 ≤ n then
      match NonRes.seekLoop (v.data.length + 2) v (.current n) n.toNat with
      | (.ok (), v2) =>
        if v2.st.streamPosition + n.toNat < U64 then
          (.ok (v2.st.streamPosition + n.toNat),
            { v2 with st := { v2.st with streamPosition := v2.st.streamPosition + n.toNat } })
        else (.panic .overflow, v2)
      | (.err e, v2) => (.err e, v2)
      | (.panic p, v2) => (.panic p, v2)
      | (.diverge, v2) => (.diverge, v2)
    else (.panic .assert, v)
  | .ok (.end_ _) => (.panic .assert, v)

end NT
