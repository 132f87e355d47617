import Verif.Model.Seek
import Verif.Model.Dev

namespace NT

/-- `src/attribute_value/resident.rs:19-23`, `struct NtfsResidentAttributeValue`. -/
structure ResVal where
  data : Bytes
  position : Pos
  streamPosition : Nat
  deriving DecidableEq, Repr

/-- `src/attribute_value/resident.rs:26-32`, `NtfsResidentAttributeValue::new`. -/
def ResVal.new (data : Bytes) (position : Pos) : ResVal :=
  { data, position, streamPosition := 0 }

/-- `src/attribute_value/resident.rs:60-62`, `len`. -/
abbrev ResVal.len (v : ResVal) : Nat := v.data.length

/-- `src/attribute_value/resident.rs:46-52`, `data_position`. -/
def ResVal.dataPosition (v : ResVal) : Pos :=
  if v.streamPosition ≤ v.len then Pos.add v.position v.streamPosition else none

/-- `src/attribute_value/resident.rs:64-66`, `remaining_len`. -/
abbrev ResVal.remainingLen (v : ResVal) : Nat := v.len - v.streamPosition

/-- `src/attribute_value/resident.rs:70-87`, `read`: count, reader, buffer. The device is not
touched. -/
def ResVal.read (v : ResVal) (buf : Bytes) : Res Nat × ResVal × Bytes :=
  if v.remainingLen = 0 then (.ok 0, v, buf)
  else
    let bytesToRead := min buf.length v.remainingLen
    match idxRange v.data v.streamPosition (v.streamPosition + bytesToRead) with
    | .ok b =>
      (.ok bytesToRead, { v with streamPosition := v.streamPosition + bytesToRead },
        overwrite buf 0 b)
    | .err e => (.err e, v, buf)
    | .panic p => (.panic p, v, buf)
    | .diverge => (.diverge, v, buf)

/-- `src/attribute_value/resident.rs:89-95`, `seek`. -/
def ResVal.seek (v : ResVal) (pos : SeekFrom) : Res Nat × ResVal :=
  let (res, sp) := seekContiguous v.streamPosition v.len pos
  (res, { v with streamPosition := sp })

end NT
