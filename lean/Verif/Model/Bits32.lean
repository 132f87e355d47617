import Verif.Model.AttrList

/-! Reading from a non-resident value on a target whose `usize` has 32 bits. There `as usize` on a `u64` keeps the lower 32
bits, which makes a difference in two places (`src/attribute_value/non_resident.rs:496` and `:653`). Seeking is arithmetic in
`u64` and stays as it is. The buffers of the caller have fewer than 2^32 bytes there. -/

namespace NT

/-- `src/attribute_value/non_resident.rs:488-511`, `NtfsDataRun::read`: line 496 cuts the remaining length down to 32 bits. -/
def DataRun.read32 (r : DataRun) (buf : Bytes) (d : Dev) : Res Nat × DataRun × Bytes × Dev :=
  if r.remainingLen = 0 then (.ok 0, r, buf, d)
  else
    let bytesToRead := min buf.length (r.remainingLen % U32)
    match r.position with
    | some position =>
      if position + r.streamPosition < U64 then
        match Dev.seekStart (position + r.streamPosition) d with
        | (.ok (), d1) =>
          match Dev.read bytesToRead d1 with
          | (.ok b, d2) =>
            (.ok b.length, { r with streamPosition := r.streamPosition + b.length },
              overwrite buf 0 b, d2)
          | (.err e, d2) => (.err e, r, buf, d2)
          | (.panic p, d2) => (.panic p, r, buf, d2)
          | (.diverge, d2) => (.diverge, r, buf, d2)
        | (.err e, d1) => (.err e, r, buf, d1)
        | (.panic p, d1) => (.panic p, r, buf, d1)
        | (.diverge, d1) => (.diverge, r, buf, d1)
      else (.panic .overflow, r, buf, d)
    | none =>
      (.ok bytesToRead, { r with streamPosition := r.streamPosition + bytesToRead },
        overwrite buf 0 (List.replicate bytesToRead 0), d)

/-- `src/attribute_value/non_resident.rs:623-664`, `read_data_run`: line 653 cuts the remaining size down to 32 bits. -/
def StreamState.readDataRun32 (s : StreamState) (buf : Bytes) (bytesRead : Nat) (d : Dev) :
    Res Bool × StreamState × Bytes × Nat × Dev :=
  match s.run with
  | none => (.ok false, s, buf, bytesRead, d)
  | some r =>
    if r.streamPosition ≥ r.allocatedSize then (.ok false, s, buf, bytesRead, d)
    else
      let remainingDataSize := s.dataSize - s.streamPosition
      if remainingDataSize = 0 then (.ok false, s, buf, bytesRead, d)
      else
        let stop := bytesRead + min (buf.length - bytesRead) (remainingDataSize % U32)
        let slice := (buf.drop bytesRead).take (stop - bytesRead)
        match r.read32 slice d with
        | (.ok n, r', slice', d') =>
          if n = 0 then
            (.ok false, { s with run := some r' }, overwrite buf bytesRead slice', bytesRead, d')
          else
            (.ok true, { s with run := some r', streamPosition := s.streamPosition + n },
              overwrite buf bytesRead slice', bytesRead + n, d')
        | (.err e, r', slice', d') =>
          (.err e, { s with run := some r' }, overwrite buf bytesRead slice', bytesRead, d')
        | (.panic p, r', slice', d') =>
          (.panic p, { s with run := some r' }, overwrite buf bytesRead slice', bytesRead, d')
        | (.diverge, r', slice', d') =>
          (.diverge, { s with run := some r' }, overwrite buf bytesRead slice', bytesRead, d')

/-- `src/attribute_value/non_resident.rs:129-144`: the loop of `read`, with fuel. -/
def NonRes.readLoop32 : Nat → NonRes → Bytes → Nat → Dev → Res Nat × NonRes × Bytes × Dev
  | 0, v, buf, _, d => (.diverge, v, buf, d)
  | fuel + 1, v, buf, bytesRead, d =>
    if bytesRead < buf.length then
      match v.st.readDataRun32 buf bytesRead d with
      | (.ok true, st', buf', bytesRead', d') =>
        NonRes.readLoop32 fuel { v with st := st' } buf' bytesRead' d'
      | (.ok false, st', buf', bytesRead', d') =>
        match ({ v with st := st' } : NonRes).nextDataRun with
        | (.ok true, v') => NonRes.readLoop32 fuel v' buf' bytesRead' d'
        | (.ok false, v') => (.ok bytesRead', v', buf', d')
        | (.err e, v') => (.err e, v', buf', d')
        | (.panic p, v') => (.panic p, v', buf', d')
        | (.diverge, v') => (.diverge, v', buf', d')
      | (.err e, st', buf', _, d') => (.err e, { v with st := st' }, buf', d')
      | (.panic p, st', buf', _, d') => (.panic p, { v with st := st' }, buf', d')
      | (.diverge, st', buf', _, d') => (.diverge, { v with st := st' }, buf', d')
    else (.ok bytesRead, v, buf, d)

/-- `src/attribute_value/non_resident.rs:123-147`, `read`. -/
def NonRes.read32 (v : NonRes) (buf : Bytes) (d : Dev) : Res Nat × NonRes × Bytes × Dev :=
  NonRes.readLoop32 (buf.length + v.data.length + v.runs.data.length + 2) v buf 0 d

/-- `NonRes.read32` in the form `ReadFn`: `src/attribute_value/non_resident.rs:123-147`. -/
def NonRes.readFn32 : ReadFn (NonRes × Dev) := fun (v, d) buf =>
  match v.read32 buf d with
  | (r, v', buf', d') => (r, (v', d'), buf')

/-- `src/attribute_value/attribute_list_non_resident.rs:200-221`: the loop of `read`, with fuel. The attribute
list and the MFT, from which `advance` reads, are taken to be below 4 GiB, where reading is the same (`C87_small_partial`). -/
def ALVal.readLoop32 : Nat → ALVal → Bytes → Nat → Dev → Res Nat × ALVal × Bytes × Dev
  | 0, v, buf, _, d => (.diverge, v, buf, d)
  | fuel + 1, v, buf, bytesRead, d =>
    if bytesRead < buf.length then
      match v.st.readDataRun32 buf bytesRead d with
      | (.ok true, st', buf', bytesRead', d') =>
        ALVal.readLoop32 fuel { v with st := st' } buf' bytesRead' d'
      | (.ok false, st', buf', bytesRead', d') =>
        match ALVal.advance { v with st := st' } d' with
        | (.ok true, v', d'') => ALVal.readLoop32 fuel v' buf' bytesRead' d''
        | (.ok false, v', d'') => (.ok bytesRead', v', buf', d'')
        | (.err e, v', d'') => (.err e, v', buf', d'')
        | (.panic p, v', d'') => (.panic p, v', buf', d'')
        | (.diverge, v', d'') => (.diverge, v', buf', d'')
      | (.err e, st', buf', _, d') => (.err e, { v with st := st' }, buf', d')
      | (.panic p, st', buf', _, d') => (.panic p, { v with st := st' }, buf', d')
      | (.diverge, st', buf', _, d') => (.diverge, { v with st := st' }, buf', d')
    else (.ok bytesRead, v, buf, d)

/-- `src/attribute_value/attribute_list_non_resident.rs:194-224`, `read`. -/
def ALVal.read32 (v : ALVal) (buf : Bytes) (d : Dev) : Res Nat × ALVal × Bytes × Dev :=
  ALVal.readLoop32 (buf.length + v.runFuel + v.leftFuel) v buf 0 d

/-- `ALVal.read32` in the form `ReadFn`: `src/attribute_value/attribute_list_non_resident.rs:194-224`. -/
def ALVal.readFn32 : ReadFn (ALVal × Dev) := fun (v, d) buf =>
  match v.read32 buf d with
  | (r, v', buf', d') => (r, (v', d'), buf')

end NT
