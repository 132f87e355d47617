import Verif.Model.Seek
import Verif.Model.Dev

namespace NT

/-- `src/attribute_value/non_resident.rs:445-454`, `struct NtfsDataRun`. -/
structure DataRun where
  position : Pos
  allocatedSize : Nat
  streamPosition : Nat
  deriving DecidableEq, Repr

/-- `src/attribute_value/non_resident.rs:457-463`, `NtfsDataRun::new`. -/
def DataRun.new (position : Pos) (allocatedSize : Nat) : DataRun :=
  { position, allocatedSize, streamPosition := 0 }

/-- `src/attribute_value/non_resident.rs:474-480`, `NtfsDataRun::data_position`. -/
def DataRun.dataPosition (r : DataRun) : Pos :=
  if r.streamPosition ≤ r.allocatedSize then Pos.add r.position r.streamPosition else none

/-- `src/attribute_value/non_resident.rs:482-484`, `remaining_len` (`saturating_sub`). -/
abbrev DataRun.remainingLen (r : DataRun) : Nat := r.allocatedSize - r.streamPosition

/-- `src/attribute_value/non_resident.rs:488-511`, `NtfsDataRun::read`. The second component of the
state is the buffer. The `u64` addition at line 501 panics on overflow. If the device fails, the
buffer is left alone (contract of `Read::read`). -/
def DataRun.read (r : DataRun) (buf : Bytes) (d : Dev) : Res Nat × DataRun × Bytes × Dev :=
  if r.remainingLen = 0 then (.ok 0, r, buf, d)
  else
    let bytesToRead := min buf.length r.remainingLen
    match r.position with
    | some position =>
      if position + r.streamPosition < U64 then
        match Dev.seekStart (position + r.streamPosition) d with
        | (.ok (), d1) =>
          match Dev.read bytesToRead d1 with
          | (.ok b, d2) =>
            (.ok b.length, { r with streamPosition := r.streamPosition + b.length },
              overwrite buf 0 b, d2)
          | (.err e, d2) => (.err e, r, buf, d2)
          | (.panic p, d2) => (.panic p, r, buf, d2)
          | (.diverge, d2) => (.diverge, r, buf, d2)
        | (.err e, d1) => (.err e, r, buf, d1)
        | (.panic p, d1) => (.panic p, r, buf, d1)
        | (.diverge, d1) => (.diverge, r, buf, d1)
      else (.panic .overflow, r, buf, d)
    | none =>
      (.ok bytesToRead, { r with streamPosition := r.streamPosition + bytesToRead },
        overwrite buf 0 (List.replicate bytesToRead 0), d)

/-- `src/attribute_value/non_resident.rs:513-519`, `NtfsDataRun::seek`. -/
def DataRun.seek (r : DataRun) (pos : SeekFrom) : Res Nat × DataRun :=
  let (res, sp) := seekContiguous r.streamPosition r.allocatedSize pos
  (res, { r with streamPosition := sp })

/-- `src/attribute_value/non_resident.rs:434-437`, `struct DataRunsState`. -/
structure RunsState where
  offset : Nat
  previousLcn : Nat
  deriving DecidableEq, Repr

/-- `src/attribute_value/non_resident.rs:267-272`, `struct NtfsDataRuns`. Simplification: the `Ntfs`
reference is replaced by its cluster size, the only thing it is used for. -/
structure DataRuns where
  clusterSize : Nat
  data : Bytes
  position : Pos
  state : RunsState
  deriving DecidableEq, Repr

/-- `src/attribute_value/non_resident.rs:275-287`, `NtfsDataRuns::new`. -/
def DataRuns.new (clusterSize : Nat) (data : Bytes) (position : Pos) : DataRuns :=
  { clusterSize, data, position, state := { offset := 0, previousLcn := 0 } }

/-- `src/attribute_value/non_resident.rs:289-301`, `NtfsDataRuns::from_state`. -/
def DataRuns.fromState (clusterSize : Nat) (data : Bytes) (position : Pos) (state : RunsState) :
    DataRuns :=
  { clusterSize, data, position, state }

/-- `src/attribute_value/non_resident.rs:308-310`, `NtfsDataRuns::position`. -/
def DataRuns.pos (r : DataRuns) : Pos := Pos.add r.position r.state.offset

/-- `src/attribute_value/non_resident.rs:312-331`, `read_variable_length_bytes`. The cursor is the
list of bytes not yet read; returned are the bytes read (the other bytes of the 8-byte buffer are
zero) and the remaining cursor. -/
def DataRuns.readVarBytes (r : DataRuns) (cursor : Bytes) (byteCount : Nat) : Res (Bytes × Bytes) :=
  if byteCount > 8 then .err (.invalidByteCountInDataRunHeader r.pos byteCount 8)
  else if byteCount ≤ cursor.length then .ok (cursor.take byteCount, cursor.drop byteCount)
  else .err (.io .unexpectedEof)

/-- `src/attribute_value/non_resident.rs:339-344`: the 8-byte little-endian buffer `raw`, of which
only the first `byteCount` bytes are set, is sign-extended with a left and an arithmetic right
shift; `wrapping_shl`/`wrapping_shr` take the shift count modulo 64. -/
def signExtend (byteCount raw : Nat) : Int :=
  let unusedBits := (8 - byteCount) * 8
  (((BitVec.ofNat 64 raw) <<< (unusedBits % 64)).sshiftRight (unusedBits % 64)).toInt

/-- `src/attribute_value/non_resident.rs:333-347`, `read_variable_length_signed_integer`. -/
def DataRuns.readVarSigned (r : DataRuns) (cursor : Bytes) (byteCount : Nat) : Res (Int × Bytes) := do
  let (b, rest) ← r.readVarBytes cursor byteCount
  pure (signExtend byteCount (leNat b), rest)

/-- `src/attribute_value/non_resident.rs:349-357`, `read_variable_length_unsigned_integer`. -/
def DataRuns.readVarUnsigned (r : DataRuns) (cursor : Bytes) (byteCount : Nat) :
    Res (Nat × Bytes) := do
  let (b, rest) ← r.readVarBytes cursor byteCount
  pure (leNat b, rest)

/-- `src/attribute_value/non_resident.rs:363-428`, `NtfsDataRuns::next`. Note that `previous_lcn` is
updated (line 414) before the position is computed (line 415). -/
def DataRuns.next (r : DataRuns) : Option (Res DataRun) × DataRuns :=
  match r.data.drop r.state.offset with
  | [] => (none, r)
  | header :: cursor =>
    if header = 0 then
      (none, { r with state := { r.state with offset := r.data.length } })
    else
      match r.readVarUnsigned cursor (header.toNat % 16) with
      | .err e => (some (.err e), r)
      | .panic p => (some (.panic p), r)
      | .diverge => (some .diverge, r)
      | .ok (clusterCount, cursor1) =>
        if clusterCount = 0 then
          (some (.err (.invalidClusterCountInDataRunHeader r.pos clusterCount)), r)
        else
          match checkedMulU64 clusterCount r.clusterSize with
          | none => (some (.err (.invalidClusterCountInDataRunHeader r.pos clusterCount)), r)
          | some allocatedSize =>
            match r.readVarSigned cursor1 (header.toNat / 16) with
            | .err e => (some (.err e), r)
            | .panic p => (some (.panic p), r)
            | .diverge => (some .diverge, r)
            | .ok (vcn, cursor2) =>
              let offset' := r.state.offset + (1 + cursor.length - cursor2.length)
              if vcn ≠ 0 then
                match Lcn.checkedAdd r.state.previousLcn vcn with
                | none =>
                  (some (.err (.invalidVcnInDataRunHeader r.pos vcn r.state.previousLcn)), r)
                | some newLcn =>
                  match Lcn.position newLcn r.clusterSize with
                  | .err e =>
                    (some (.err e), { r with state := { r.state with previousLcn := newLcn } })
                  | .panic p =>
                    (some (.panic p), { r with state := { r.state with previousLcn := newLcn } })
                  | .diverge =>
                    (some .diverge, { r with state := { r.state with previousLcn := newLcn } })
                  | .ok position =>
                    (some (.ok (DataRun.new position allocatedSize)),
                      { r with state := { offset := offset', previousLcn := newLcn } })
              else
                (some (.ok (DataRun.new none allocatedSize)),
                  { r with state := { r.state with offset := offset' } })

end NT
